import Verif.Props.AnyTransport
import Verif.Props.Halves

/-!
# C101: a peer that falls silent

Neither API has a time limit of its own.  The documentation of `ShapedProtocol::new` (traffic/src/futures.rs:75-103) even has an example in
which the other end of the connection is never served.
-/

namespace Bip324

variable {P : Prims} {prof : Profile} {σ S : Type} {fuel : Nat}

/-- A connection that stays open and on which the peer sends at most `left` more bytes, whatever it receives: reading either gives some of
them or blocks, and writing never fails, but may block too. -/
structure Conn.Stalls (N : Conn σ) (left : σ → Nat) : Prop where
  read : ∀ s n s' x, 0 < n → N.read s n = some (s', x) → ∃ bs, x = .ok bs ∧ bs ≠ [] ∧ bs.length ≤ n ∧ left s' + bs.length ≤ left s
  write : ∀ s buf s' x, buf ≠ [] → N.write s buf = some (s', x) → (∃ n, x = .ok (n + 1)) ∧ left s' ≤ left s
  flush : ∀ s s' x, N.flush s = some (s', x) → x = .ok () ∧ left s' ≤ left s

/-- The same of any reader. -/
def ReadStalls (rd : S → Nat → Option (S × ReadRes)) (m : S → Nat) : Prop :=
  ∀ s n s' x, 0 < n → rd s n = some (s', x) → ∃ bs, x = .ok bs ∧ bs ≠ [] ∧ bs.length ≤ n ∧ m s' + bs.length ≤ m s

theorem Conn.Stalls.readRun {N : Conn σ} {left : σ → Nat} (h : N.Stalls left) : ReadStalls N.readRun (fun r => left r.net) := by
  intro r n r' x hn hx
  unfold Conn.readRun at hx
  split at hx
  · cases hx
  all_goals
    rename_i s y heq
    obtain ⟨bs, h1, h2, h3, h4⟩ := h.read _ _ _ _ hn heq
    cases h1
    try
      simp only [Option.some.injEq, Prod.mk.injEq] at hx
      obtain ⟨rfl, rfl⟩ := hx
      exact ⟨_, rfl, h2, h3, h4⟩

theorem readExactN_stalls {rd : S → Nat → Option (S × ReadRes)} {m : S → Nat} (h : ReadStalls rd m) {retry : Bool} :
    ∀ (fuel : Nat) (s : S) (need : Nat) (acc : Bytes) (y : S × Except ErrorKind Bytes), readExactN fuel rd retry s need acc = some y →
      need ≤ m s ∧ m y.1 + need ≤ m s ∧ ∃ out, y.2 = .ok out ∧ out.length = acc.length + need := by
  intro fuel
  induction fuel with
  | zero => intro s need acc y hy; simp [readExactN] at hy
  | succ fuel ih =>
    intro s need acc y hy
    rw [readExactN] at hy
    split at hy
    · rename_i h0
      simp only [Option.some.injEq] at hy
      subst hy h0
      exact ⟨Nat.zero_le _, Nat.le_refl _, _, rfl, rfl⟩
    · rename_i h0
      split at hy
      · cases hy
      · rename_i heq
        obtain ⟨bs, h1, h2, -⟩ := h _ _ _ _ (Nat.pos_of_ne_zero h0) heq
        cases h1
        exact absurd rfl h2
      · rename_i s' b bs heq
        obtain ⟨bs', h1, h2, h3, h4⟩ := h _ _ _ _ (Nat.pos_of_ne_zero h0) heq
        cases h1
        obtain ⟨k1, k2, out, k3, k4⟩ := ih _ _ _ _ hy
        refine ⟨by omega, by omega, out, k3, ?_⟩
        rw [k4, List.length_append]
        omega
      · rename_i heq
        obtain ⟨bs, h1, -⟩ := h _ _ _ _ (Nat.pos_of_ne_zero h0) heq
        cases h1

theorem Conn.Stalls.writeAll {N : Conn σ} {left : σ → Nat} (h : N.Stalls left) {retry : Bool} :
    ∀ (fuel : Nat) (r : ConnRun σ) (buf : Bytes) (y : ConnRun σ × Except ErrorKind Unit), N.writeAll fuel retry r buf = some y →
      y.2 = .ok () ∧ left y.1.net ≤ left r.net := by
  intro fuel
  induction fuel with
  | zero => intro r buf y hy; simp [Conn.writeAll] at hy
  | succ fuel ih =>
    intro r buf y hy
    cases buf with
    | nil =>
      simp only [Conn.writeAll, Option.some.injEq] at hy
      subst hy
      exact ⟨rfl, Nat.le_refl _⟩
    | cons b bs =>
      simp only [Conn.writeAll] at hy
      have hw : ∀ r' x, N.writeRun r (b :: bs) = some (r', x) → (∃ n, x = .ok (n + 1)) ∧ left r'.net ≤ left r.net := by
        intro r' x hx
        unfold Conn.writeRun at hx
        split at hx
        · cases hx
        all_goals
          rename_i heq
          have := h.write _ _ _ _ (by simp) heq
          simp only [Option.some.injEq, Prod.mk.injEq] at hx
          obtain ⟨rfl, rfl⟩ := hx
          exact this
      split at hy
      · cases hy
      · rename_i heq
        obtain ⟨⟨n, hn⟩, -⟩ := hw _ _ heq
        cases hn
      · rename_i heq
        obtain ⟨k1, k2⟩ := ih _ _ _ hy
        exact ⟨k1, Nat.le_trans k2 (hw _ _ heq).2⟩
      · rename_i heq
        obtain ⟨⟨n, hn⟩, -⟩ := hw _ _ heq
        cases hn

theorem Conn.Stalls.send {N : Conn σ} {left : σ → Nat} (h : N.Stalls left) {retry : Bool} {r : ConnRun σ} {buf : Bytes}
    {y : ConnRun σ × Except ErrorKind Unit} (hy : N.send fuel retry r buf = some y) : y.2 = .ok () ∧ left y.1.net ≤ left r.net := by
  unfold Conn.send at hy
  split at hy
  · cases hy
  · rename_i heq
    have := (h.writeAll _ _ _ _ heq).1
    cases this
  · rename_i heq
    have h1 := (h.writeAll _ _ _ _ heq).2
    unfold Conn.flushRun at hy
    split at hy
    · cases hy
    · rename_i heq
      have h2 := h.flush _ _ _ heq
      simp only [Option.some.injEq] at hy
      subst hy
      exact ⟨h2.1, Nat.le_trans h2.2 h1⟩

theorem handshakeN_stalls (hP : Lawful P) {A : ApiN} {N : Conn σ} {left : σ → Nat} (h : N.Stalls left) {magic rng : Bytes} (role : Role)
    {g : Option Bytes} (d : Option (List Bytes)) (hk : Spec.UsableKey P prof rng) (hg : (g.getD []).length ≤ 4095) {r : ConnRun σ}
    (hl : left r.net < 64) : handshakeN fuel A N P prof magic role rng g d r = none := by
  unfold handshakeN
  rw [newWithRng_ok hk]
  simp only
  unfold handshakeWithInitializedN
  have hlen : HsInitialized.sendKeyLen g = 64 + (g.getD []).length := by
    cases g <;> rfl
  rw [C18_send_key _ (hP.ellswift_length _), hlen]
  simp only
  rw [if_neg (by omega), if_neg (by rw [zeros_length]; omega)]
  simp only
  split
  · rfl
  · rename_i heq
    have := (h.send heq).1
    cases this
  · rename_i heq
    have h1 := (h.send heq).2
    split
    · rfl
    all_goals
      rename_i heq2
      have := (readExactN_stalls h.readRun _ _ _ _ _ heq2).1
      have e : NUM_ELLIGATOR_SWIFT_BYTES = 64 := rfl
      simp only at this h1
      omega

/-- C101: while the peer has sent fewer than 64 bytes and keeps the connection open, none of the four `new` returns, whatever the role, the
garbage and the decoys: there is no error, and no suggestion to use V1. -/
theorem C101_new_waits (hP : Lawful P) {N : PollConn σ} {left : σ → Nat} (h : N.toConn.Stalls left) (magic : Bytes) {rng : Bytes} (role : Role)
    (hk : Spec.UsableKey P prof rng) {r : ConnRun σ} (hl : left r.net < 64) (fuel : Nat) :
    (∀ (g : Option Bytes) (d : Option (List Bytes)), (g.getD []).length ≤ 4095 →
      SyncN.new fuel N.toConn P prof magic role rng g d r = none ∧ AsyncN.new fuel N P prof magic role rng g d r = none) ∧
    ∀ (G : Rng) (config : TrafficConfig) (gen : G.State),
      (ShapedN.new (R := G) fuel N.toConn P prof magic role rng config gen r).isNone ∧
      (AsyncShapedN.new (R := G) fuel N P prof magic role rng config gen r).isNone := by
  have plain : ∀ (g : Option Bytes) (d : Option (List Bytes)), (g.getD []).length ≤ 4095 →
      SyncN.new fuel N.toConn P prof magic role rng g d r = none ∧ AsyncN.new fuel N P prof magic role rng g d r = none := by
    intro g d hg
    unfold SyncN.new AsyncN.new
    rw [handshakeN_stalls hP h role d hk hg hl, handshakeN_stalls hP h role d hk hg hl]
    exact ⟨rfl, rfl⟩
  refine ⟨plain, ?_⟩
  intro G config gen
  unfold ShapedN.new AsyncShapedN.new
  generalize hsh : Shaper.handshake (R := G) ⟨config, gen⟩ = z
  obtain ⟨sh, g, d, rec⟩ := z
  have hg : (g.getD []).length ≤ 4095 := (C37_handshake hsh).1
  simp only [(plain g d hg).1, (plain g d hg).2]
  exact ⟨rfl, rfl⟩

theorem syncN_read_stalls {N : Conn σ} {left : σ → Nat} (h : N.Stalls left) :
    ReadStalls (S := (Bytes × Bool) × ConnRun σ) (syncN.read N.readRun) (fun s => (if s.1.2 then 0 else s.1.1.length) + left s.2.net) := by
  rintro ⟨⟨l, b⟩, r⟩ n ⟨⟨l', b'⟩, r'⟩ x hn hx
  simp only [syncN] at hx
  have hr := h.readRun
  split at hx
  · split at hx
    · cases hx
    · rename_i hb _ _ _ heq
      obtain ⟨bs, h1, h2, h3, h4⟩ := hr _ _ _ _ hn heq
      simp only [Option.some.injEq, Prod.mk.injEq] at hx
      obtain ⟨⟨⟨rfl, rfl⟩, rfl⟩, rfl⟩ := hx
      exact ⟨bs, h1, h2, h3, by simp only [hb, if_true] at *; omega⟩
  · rename_i hb
    split at hx
    · split at hx
      · omega
      · split at hx
        · cases hx
        · rename_i heq
          obtain ⟨bs, h1, h2, h3, h4⟩ := hr _ _ _ _ hn heq
          simp only [Option.some.injEq, Prod.mk.injEq] at hx
          obtain ⟨⟨⟨rfl, rfl⟩, rfl⟩, rfl⟩ := hx
          exact ⟨bs, h1, h2, h3, by simp only [if_true] at *; omega⟩
    · rename_i c cs heq
      simp only [Option.some.injEq, Prod.mk.injEq] at hx
      obtain ⟨⟨⟨rfl, rfl⟩, rfl⟩, rfl⟩ := hx
      have hlen : (l.take n).length = (c :: cs).length := by rw [heq]
      rw [List.length_take] at hlen
      refine ⟨_, rfl, by simp, by omega, ?_⟩
      simp only [hb, Bool.false_eq_true, if_false, List.length_drop]
      omega

/-- C101: and after the handshake a blocking `read` does not return while the peer has sent fewer than the 20 bytes of an empty packet,
those left over from the handshake included. -/
theorem C101_read_waits {N : Conn σ} {left : σ → Nat} (h : N.Stalls left) (c : InboundCipher)
    (hp : prof.overflowChecks = false ∨ (c.lengthCipher.blockCounter + 3 < 2 ^ 32 ∧ c.lengthCipher.chunkCounter + 1 < 2 ^ 32))
    {rest : Bytes} {drained : Bool} {r : ConnRun σ} (hl : rest.length + left r.net < 20) (fuel : Nat) :
    syncReadN fuel N P prof c ((rest, drained), r) = none := by
  have hs := syncN_read_stalls h
  have hm : (if drained then 0 else rest.length) + left r.net < 20 := by split <;> omega
  unfold syncReadN
  split
  · rfl
  · rename_i heq
    obtain ⟨-, -, out, k, -⟩ := readExactN_stalls hs _ _ _ _ _ heq
    cases k
  · rename_i s1 lb heq
    obtain ⟨-, k2, out, k3, k4⟩ := readExactN_stalls hs _ _ _ _ _ heq
    cases k3
    obtain ⟨c', n, hn⟩ := C11_packet_len_total (P := P) c lb hp
    have hb := (C11_packet_len_bounds c c' lb (by rw [k4]; rfl) n hn).1
    rw [hn]
    simp only
    have e : NUM_LENGTH_BYTES = 3 := rfl
    simp only at k2
    split
    · rfl
    all_goals
      rename_i heq2
      have := (readExactN_stalls hs _ _ _ _ _ heq2).1
      omega

/-! ## The example of the documentation -/

/-- traffic/src/futures.rs:86-87: one half of `tokio::io::duplex(1024)`, split, while nobody uses `remote`.  The state is the room left in
the buffer towards `remote`. -/
def unservedDuplex : PollConn Nat where
  read _ _ := none
  write room buf := if room = 0 then none else some (room - min room buf.length, .ok (min room buf.length))
  flush room := some (room, .ok ())
  pollRead room _ := (room, .pending)

theorem unservedDuplex_stalls : unservedDuplex.toConn.Stalls (fun _ => 0) where
  read s n s' x hn hx := by cases hx
  write s buf s' x hb hx := by
    simp only [unservedDuplex] at hx
    split at hx
    · cases hx
    · simp only [Option.some.injEq, Prod.mk.injEq] at hx
      have hl : 0 < buf.length := List.length_pos_iff.2 hb
      exact ⟨⟨min s buf.length - 1, by rw [← hx.2]; congr 1; omega⟩, Nat.le_refl _⟩
  flush s s' x hx := by
    simp only [unservedDuplex, Option.some.injEq, Prod.mk.injEq] at hx
    exact ⟨hx.2.symm, Nat.le_refl _⟩

/-- C101: the example at traffic/src/futures.rs:75-103 would never get past `ShapedProtocol::new` (it is marked `no_run`). -/
theorem C101_example (hP : Lawful P) {rng : Bytes} (hk : Spec.UsableKey P prof rng) (G : Rng) (gen : G.State) (fuel : Nat) :
    (AsyncShapedN.new (R := G) fuel unservedDuplex P prof [0xF9, 0xBE, 0xB4, 0xD9] .initiator rng ⟨.random, .random⟩ gen ⟨1024, [], []⟩).isNone :=
  ((C101_new_waits hP unservedDuplex_stalls _ .initiator hk (by decide) fuel).2 G _ gen).2

/-! ## Non-vacuity -/

/-- A connection on which these bytes are still to come. -/
def trickle : PollConn Bytes where
  read s n := if s = [] then none else some (s.drop n, .ok (s.take n))
  write s buf := some (s, .ok buf.length)
  flush s := some (s, .ok ())
  pollRead s n := if s = [] then (s, .pending) else (s.drop n, .ready (.ok (s.take n)))

theorem trickle_stalls : trickle.toConn.Stalls List.length where
  read s n s' x hn hx := by
    simp only [trickle] at hx
    split at hx
    · cases hx
    · rename_i h0
      simp only [Option.some.injEq, Prod.mk.injEq] at hx
      have hl : 0 < s.length := List.length_pos_iff.2 h0
      refine ⟨s.take n, hx.2.symm, ?_, by rw [List.length_take]; omega, by rw [← hx.1, List.length_drop, List.length_take]; omega⟩
      rw [Ne, ← List.length_eq_zero_iff, List.length_take]
      omega
  write s buf s' x hb hx := by
    simp only [trickle, Option.some.injEq, Prod.mk.injEq] at hx
    have hl : 0 < buf.length := List.length_pos_iff.2 hb
    exact ⟨⟨buf.length - 1, by rw [← hx.2]; congr 1; omega⟩, by rw [hx.1]⟩
  flush s s' x hx := by
    simp only [trickle, Option.some.injEq, Prod.mk.injEq] at hx
    exact ⟨hx.2.symm, by rw [hx.1]⟩

/- 63 bytes of a V1 peer are not enough. -/
example (fuel : Nat) : SyncN.new fuel trickle.toConn toy .debug [1, 2, 3, 4] .responder (leBytes 32 99) none none
    ⟨[1, 2, 3, 4] ++ zeros 59, [], []⟩ = none :=
  ((C101_new_waits toy_lawful trickle_stalls _ _ ⟨by decide +kernel, by decide +kernel⟩ (by decide +kernel) fuel).1 _ _ (by decide)).1

/- 64 are: the number in `C101_new_waits` is exact. -/
example : (SyncN.new 9 trickle.toConn toy .debug [1, 2, 3, 4] .responder (leBytes 32 99) none none
      ⟨[1, 2, 3, 4] ++ zeros 60, [], []⟩).map (fun y => match y.2 with | .err e => some e | _ => none) = some (some (.internal .v1Protocol)) := by
  decide +kernel

/- The example of the documentation with the toy ciphers. -/
example (fuel : Nat) : (AsyncShapedN.new (R := listRng) fuel unservedDuplex toy .debug [0xF9, 0xBE, 0xB4, 0xD9] .initiator (leBytes 32 77)
    ⟨.random, .random⟩ [2, 42, 1, 3, 7] ⟨1024, [], []⟩).isNone :=
  C101_example toy_lawful ⟨by decide +kernel, by decide +kernel⟩ _ _ _

/- An empty packet has 20 bytes: it is read, and while one byte is missing the read waits. -/
example (fuel : Nat) : syncReadN fuel trickle.toConn toy .debug sampleIn (([], true), ⟨zeros 19, [], []⟩) = none :=
  C101_read_waits trickle_stalls _ (.inr (by decide +kernel)) (by decide +kernel) fuel

example : (syncReadN 9 trickle.toConn toy .debug sampleIn (([], true),
      ⟨((⟨sampleOut, ⟨[], [], []⟩⟩ : Writer).write .sync toy .debug (.genuine [])).1.writer.out, [], []⟩)).map
    (fun y => match y.2 with | .ok p => p.contents | _ => none) = some (some []) := by decide +kernel

end Bip324
