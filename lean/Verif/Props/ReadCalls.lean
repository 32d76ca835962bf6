import Verif.Props.BufReader
import Verif.Props.AnyScript

/-!
# How often the transport is read: C82

The documentation advises to put a `BufReader` between the library and the transport, because the "protocol makes many
small reads".  The number of `read` calls that the transport answers is the length of the record in `ConnRun`; below a
`BufReader` it is kept by `Conn.logged`.
-/

namespace Bip324

variable {P : Prims} {prof : Profile} {σ : Type} {fuel : Nat}

/-! ## Specification -/

/-- An answer with at least one byte. -/
def REv.gives : REv → Bool
  | .data (_ :: _) => true
  | _ => false

/-- The calls that have given bytes. -/
def dataReads (answers : Source) : Nat := answers.countP REv.gives

/-- The bytes given. -/
def received (answers : Source) : Nat := (Source.bytes answers).length

/-- The payloads that the application got. -/
def Answer.payloads : List Answer → List Payload
  | [] => []
  | .read (.ok p) :: xs => p :: Answer.payloads xs
  | _ :: xs => Answer.payloads xs

theorem dataReads_append (a b : Source) : dataReads (a ++ b) = dataReads a + dataReads b := by simp [dataReads]

theorem received_append (a b : Source) : received (a ++ b) = received a + received b := by
  unfold received; simp

/-! ## Through a `BufReader` -/

/-- A read that gives bytes of a script takes all that the buffer holds or ends a piece. -/
theorem source_read_cost {s s' : Source} {n : Nat} {x : ReadRes} (h : s.read n = (s', x)) :
    dataReads s' ≤ dataReads s ∧
    ∀ bs, x = .ok bs → bs ≠ [] → dataReads s' + 1 ≤ dataReads s ∨ bs.length = n := by
  induction s with
  | nil =>
    simp only [Source.read, Prod.mk.injEq] at h
    obtain ⟨rfl, rfl⟩ := h
    simp
  | cons e s ih =>
    cases e with
    | pending =>
      simp only [Source.read] at h
      have := ih h
      simpa [dataReads, List.countP_cons, REv.gives] using this
    | fail k =>
      simp only [Source.read, Prod.mk.injEq] at h
      obtain ⟨rfl, rfl⟩ := h
      simp [dataReads, List.countP_cons]
    | data b =>
      simp only [Source.read] at h
      split at h
      · simp only [Prod.mk.injEq] at h
        obtain ⟨rfl, rfl⟩ := h
        refine ⟨by simp [dataReads, List.countP_cons], ?_⟩
        rintro bs hx hb
        simp only [ReadRes.ok.injEq] at hx
        subst hx
        cases b with
        | nil => exact absurd rfl hb
        | cons b bs => left; simp [dataReads, List.countP_cons, REv.gives]
      · rename_i hl
        simp only [Prod.mk.injEq] at h
        obtain ⟨rfl, rfl⟩ := h
        have hb : b ≠ [] := by rintro rfl; simp at hl
        obtain ⟨a, b, rfl⟩ := List.exists_cons_of_ne_nil hb
        refine ⟨?_, ?_⟩
        · have h1 : ∀ e, dataReads (e :: s) ≤ dataReads s + 1 := by
            intro e; simp only [dataReads, List.countP_cons]; split <;> omega
          have h2 : dataReads (.data (a :: b) :: s) = dataReads s + 1 := by simp [dataReads, List.countP_cons, REv.gives]
          rw [h2]; exact h1 _
        · rintro bs hx -
          simp only [ReadRes.ok.injEq] at hx
          subst hx
          right
          simp only [List.length_take]; omega

theorem source_poll_cost {s s' : Source} {n : Nat} {x : PollRead} (h : s.pollRead n = (s', x)) :
    dataReads s' ≤ dataReads s ∧
    ∀ bs, x = .ready (.ok bs) → bs ≠ [] → dataReads s' + 1 ≤ dataReads s ∨ bs.length = n := by
  cases s with
  | nil =>
    simp only [Source.pollRead, Prod.mk.injEq] at h
    obtain ⟨rfl, rfl⟩ := h
    simp
  | cons e s =>
    cases e with
    | pending =>
      simp only [Source.pollRead, Prod.mk.injEq] at h
      obtain ⟨rfl, rfl⟩ := h
      simp [dataReads, List.countP_cons]
    | fail k =>
      simp only [Source.pollRead, Prod.mk.injEq] at h
      obtain ⟨rfl, rfl⟩ := h
      simp [dataReads, List.countP_cons]
    | data b =>
      have h' : ∃ r, x = .ready r ∧ Source.read (.data b :: s) n = (s', r) := by
        simp only [Source.pollRead] at h
        simp only [Source.read]
        split at h <;> simp only [Prod.mk.injEq] at h <;> obtain ⟨rfl, rfl⟩ := h <;> simp [*]
      obtain ⟨r, rfl, h'⟩ := h'
      obtain ⟨h1, h2⟩ := source_read_cost h'
      refine ⟨h1, fun bs hx hb => h2 bs ?_ hb⟩
      simpa using hx

/-- What a `BufReader` keeps: each call that gave bytes took a full buffer or ended a piece. -/
def Frugal (cap start : Nat) (r : ConnRun (BufState (ConnRun (Source × Sink)))) : Prop :=
  (dataReads r.net.inner.answers + dataReads r.net.inner.net.1) * cap ≤ received r.net.inner.answers + start * cap

theorem frugal_step {cap start : Nat} {a : Source} {s s' : Source} {e : REv} (hs : dataReads s' ≤ dataReads s)
    (he : ∀ bs, e = .data bs → bs ≠ [] → dataReads s' + 1 ≤ dataReads s ∨ cap ≤ bs.length)
    (h : (dataReads a + dataReads s) * cap ≤ received a + start * cap) :
    (dataReads (a ++ [e]) + dataReads s') * cap ≤ received (a ++ [e]) + start * cap := by
  rw [dataReads_append, received_append]
  have hm := Nat.mul_le_mul_right cap (Nat.add_le_add_left hs (dataReads a))
  by_cases hg : e.gives = true
  · cases e with
    | data bs =>
      cases bs with
      | nil => simp [REv.gives] at hg
      | cons b bs =>
        have h1 : dataReads [REv.data (b :: bs)] = 1 := by simp [dataReads, REv.gives]
        have h2 : received [REv.data (b :: bs)] = (b :: bs).length := by simp [received, Source.bytes]
        rw [h1, h2]
        rcases he _ rfl (by simp) with h3 | h3
        · have : (dataReads a + 1 + dataReads s') * cap ≤ (dataReads a + dataReads s) * cap :=
            Nat.mul_le_mul_right _ (by omega)
          omega
        · have : (dataReads a + 1 + dataReads s') * cap = (dataReads a + dataReads s') * cap + cap := by ring
          omega
    | fail k => simp [REv.gives] at hg
    | pending => simp [REv.gives] at hg
  · have h1 : dataReads [e] = 0 := by simp [dataReads, hg]
    rw [h1, Nat.add_zero]
    omega

theorem readRun_frugal {cap start n : Nat} (hn : cap ≤ n) {i i' : ConnRun (Source × Sink)} {x : ReadRes}
    (h : (dataReads i.answers + dataReads i.net.1) * cap ≤ received i.answers + start * cap)
    (he : scriptConn.readRun i n = some (i', x)) :
    (dataReads i'.answers + dataReads i'.net.1) * cap ≤ received i'.answers + start * cap := by
  have ha := (readRun_answers he).1
  have hr : i.net.1.read n = (i'.net.1, x) := by
    simp only [Conn.readRun, scriptConn] at he
    cases hx : i.net.1.read n with
    | mk s y =>
      rw [hx] at he
      cases y <;> simp only [Option.some.injEq, Prod.mk.injEq] at he <;> obtain ⟨rfl, rfl⟩ := he <;> rfl
  obtain ⟨h1, h2⟩ := source_read_cost hr
  rw [ha]
  refine frugal_step h1 ?_ h
  intro bs hx hb
  cases x with
  | ok b =>
    simp only [REv.data.injEq] at hx
    subst hx
    rcases h2 b rfl hb with h3 | h3
    · exact .inl h3
    · exact .inr (by omega)
  | err k => simp at hx

theorem pollRun_frugal {cap start n : Nat} (hn : cap ≤ n) {i i' : ConnRun (Source × Sink)} {x : PollRead}
    (h : (dataReads i.answers + dataReads i.net.1) * cap ≤ received i.answers + start * cap)
    (he : scriptConn.pollRun i n = (i', x)) :
    (dataReads i'.answers + dataReads i'.net.1) * cap ≤ received i'.answers + start * cap := by
  have ha := (pollRun_answers he).1
  have hr : i.net.1.pollRead n = (i'.net.1, x) := by
    simp only [PollConn.pollRun, scriptConn] at he
    cases hx : i.net.1.pollRead n with
    | mk s y =>
      rw [hx] at he
      rcases y with (_ | _) | _ <;> simp only [Prod.mk.injEq] at he <;> obtain ⟨rfl, rfl⟩ := he <;> rfl
  obtain ⟨h1, h2⟩ := source_poll_cost hr
  rw [ha]
  refine frugal_step h1 ?_ h
  intro bs hx hb
  rcases x with (b | k) | _
  · simp only [REv.data.injEq] at hx
    subst hx
    rcases h2 b rfl hb with h3 | h3
    · exact .inl h3
    · exact .inr (by omega)
  · simp at hx
  · simp at hx

theorem frugal_conn (cap start : Nat) : (bufConn cap scriptConn.toConn.logged).Preserves (Frugal cap start) where
  read := by
    rintro ⟨⟨i, buf⟩, ans, sent⟩ n r' x hn h he
    simp only [Frugal] at h
    unfold Conn.readRun at he
    simp only [bufConn, bufRead, Conn.logged] at he
    by_cases hb : buf = []
    · subst hb
      simp only [if_pos] at he
      by_cases hc : cap ≤ n
      · simp only [if_pos hc] at he
        cases hr : scriptConn.readRun i n with
        | none => rw [hr] at he; simp at he
        | some z =>
        obtain ⟨i', z⟩ := z
        have := readRun_frugal hc h hr
        rw [hr] at he
        cases z <;>
        · simp only [Option.some.injEq, Prod.mk.injEq] at he
          obtain ⟨rfl, rfl⟩ := he
          exact this
      · simp only [if_neg hc] at he
        cases hr : scriptConn.readRun i cap with
        | none => rw [hr] at he; simp at he
        | some z =>
        obtain ⟨i', z⟩ := z
        have := readRun_frugal (Nat.le_refl _) h hr
        rw [hr] at he
        cases z <;>
        · simp only [Option.some.injEq, Prod.mk.injEq] at he
          obtain ⟨rfl, rfl⟩ := he
          exact this
    · simp only [if_neg hb, Option.some.injEq, Prod.mk.injEq] at he
      obtain ⟨rfl, rfl⟩ := he
      exact h
  write := by
    rintro ⟨⟨i, buf⟩, ans, sent⟩ b r' x h he
    simp only [Frugal] at h
    simp only [Conn.writeRun, bufConn, Conn.logged, scriptConn] at he
    split at he <;> simp_all [Frugal]
    · grind
    · grind
  flush := by
    rintro ⟨⟨i, buf⟩, ans, sent⟩ r' x h he
    simp only [Frugal] at h
    simp only [Conn.flushRun, bufConn, Conn.logged, scriptConn, Option.some.injEq, Prod.mk.injEq] at he
    obtain ⟨rfl, rfl⟩ := he
    exact h

theorem frugal_poll (cap start : Nat) : PollKeeps (bufPoll cap scriptConn.logged) (Frugal cap start) := by
  rintro ⟨⟨i, buf⟩, ans, sent⟩ n r' x hn h he
  simp only [Frugal] at h
  unfold PollConn.pollRun at he
  simp only [bufPoll, bufPollRead, PollConn.logged] at he
  by_cases hb : buf = []
  · subst hb
    simp only [if_pos] at he
    by_cases hc : cap ≤ n
    · simp only [if_pos hc] at he
      cases hr : scriptConn.pollRun i n with
      | mk i' z =>
      have := pollRun_frugal hc h hr
      rw [hr] at he
      rcases z with (_ | _) | _ <;>
      · simp only [Prod.mk.injEq] at he
        obtain ⟨rfl, rfl⟩ := he
        exact this
    · simp only [if_neg hc] at he
      cases hr : scriptConn.pollRun i cap with
      | mk i' z =>
      have := pollRun_frugal (Nat.le_refl _) h hr
      rw [hr] at he
      rcases z with (bs | k) | _ <;>
      · simp only [Prod.mk.injEq] at he
        obtain ⟨rfl, rfl⟩ := he
        exact this
  · simp only [if_neg hb, Prod.mk.injEq] at he
    obtain ⟨rfl, rfl⟩ := he
    exact h

theorem frugal_bound {cap start : Nat} (hcap : 0 < cap) {r : ConnRun (BufState (ConnRun (Source × Sink)))}
    (h : Frugal cap start r) :
    dataReads r.net.inner.answers ≤ received r.net.inner.answers / cap + start := by
  unfold Frugal at h
  have h1 : dataReads r.net.inner.answers * cap ≤ received r.net.inner.answers + start * cap :=
    Nat.le_trans (Nat.mul_le_mul_right _ (Nat.le_add_right _ _)) h
  have h2 := Nat.div_le_div_right (c := cap) h1
  rw [Nat.mul_div_cancel _ hcap, Nat.add_mul_div_right _ _ hcap] at h2
  exact h2

/-- C82, blocking API, through a `BufReader` of `cap` bytes: a whole connection, with any outcome, reads from the transport
at most once per `cap` bytes received and once more for each piece in which they arrived. -/
theorem C82_buffered_sync {cap : Nat} (hcap : 0 < cap) {magic rng : Bytes} {role : Role} {g : Option Bytes}
    {d : Option (List Bytes)} {src : Source} {w : Sink} {r1 : ConnRun (BufState (ConnRun (Source × Sink)))}
    {o : Outcome ProtocolError (SyncN (BufState (ConnRun (Source × Sink))))}
    (hnew : SyncN.new fuel (bufConn cap scriptConn.toConn.logged) P prof magic role rng g d (bufStart (src, w)) = some (r1, o)) :
    dataReads r1.net.inner.answers ≤ received r1.net.inner.answers / cap + dataReads src ∧
    ∀ p cs p' xs, o = .ok p → p.calls fuel (bufConn cap scriptConn.toConn.logged) P prof cs = some (p', xs) →
      dataReads p'.run.net.inner.answers ≤ received p'.run.net.inner.answers / cap + dataReads src := by
  have h0 : Frugal cap (dataReads src) (bufStart (src, w)) := by simp [Frugal, bufStart, dataReads, received, Source.bytes]
  unfold SyncN.new at hnew
  have h1 := @handshakeN_keeps P prof _ fuel syncN syncN_keeps _ _ (frugal_conn cap (dataReads src))
  cases hh : handshakeN fuel syncN (bufConn cap scriptConn.toConn.logged) P prof magic role rng g d (bufStart (src, w)) with
  | none => rw [hh] at hnew; simp at hnew
  | some z =>
  obtain ⟨r2, z⟩ := z
  have h2 := h1 h0 hh
  rw [hh] at hnew
  cases z with
  | panic =>
    simp only [Option.some.injEq, Prod.mk.injEq] at hnew
    obtain ⟨rfl, rfl⟩ := hnew
    exact ⟨frugal_bound hcap h2, fun _ _ _ _ h => by simp at h⟩
  | err e =>
    simp only [Option.some.injEq, Prod.mk.injEq] at hnew
    obtain ⟨rfl, rfl⟩ := hnew
    exact ⟨frugal_bound hcap h2, fun _ _ _ _ h => by simp at h⟩
  | ok v =>
    obtain ⟨i, o', s⟩ := v
    simp only [Option.some.injEq, Prod.mk.injEq] at hnew
    obtain ⟨rfl, rfl⟩ := hnew
    refine ⟨frugal_bound hcap h2, fun p cs p' xs h hc => ?_⟩
    simp only [Outcome.ok.injEq] at h
    subst h
    exact frugal_bound hcap (syncCalls_keeps (frugal_conn cap (dataReads src)) cs h2 hc)

/-- C82, asynchronous API, through tokio's `BufReader`. -/
theorem C82_buffered_async {cap : Nat} (hcap : 0 < cap) {magic rng : Bytes} {role : Role} {g : Option Bytes}
    {d : Option (List Bytes)} {src : Source} {w : Sink} {r1 : ConnRun (BufState (ConnRun (Source × Sink)))}
    {o : Outcome ProtocolError (AsyncN (BufState (ConnRun (Source × Sink))))}
    (hnew : AsyncN.new fuel (bufPoll cap scriptConn.logged) P prof magic role rng g d (bufStart (src, w)) = some (r1, o)) :
    dataReads r1.net.inner.answers ≤ received r1.net.inner.answers / cap + dataReads src ∧
    ∀ p cs p' xs, o = .ok p → p.calls fuel (bufPoll cap scriptConn.logged) P prof cs = some (p', xs) →
      dataReads p'.run.net.inner.answers ≤ received p'.run.net.inner.answers / cap + dataReads src := by
  have h0 : Frugal cap (dataReads src) (bufStart (src, w)) := by simp [Frugal, bufStart, dataReads, received, Source.bytes]
  unfold AsyncN.new at hnew
  have h1 := @handshakeN_keeps P prof _ fuel asyncN asyncN_keeps _ _ (frugal_conn cap (dataReads src))
  cases hh : handshakeN fuel asyncN (bufPoll cap scriptConn.logged).toConn P prof magic role rng g d (bufStart (src, w)) with
  | none => rw [hh] at hnew; simp at hnew
  | some z =>
  obtain ⟨r2, z⟩ := z
  have h2 := h1 h0 hh
  rw [hh] at hnew
  cases z with
  | panic =>
    simp only [Option.some.injEq, Prod.mk.injEq] at hnew
    obtain ⟨rfl, rfl⟩ := hnew
    exact ⟨frugal_bound hcap h2, fun _ _ _ _ h => by simp at h⟩
  | err e =>
    simp only [Option.some.injEq, Prod.mk.injEq] at hnew
    obtain ⟨rfl, rfl⟩ := hnew
    exact ⟨frugal_bound hcap h2, fun _ _ _ _ h => by simp at h⟩
  | ok v =>
    obtain ⟨i, o', s⟩ := v
    simp only [Option.some.injEq, Prod.mk.injEq] at hnew
    obtain ⟨rfl, rfl⟩ := hnew
    refine ⟨frugal_bound hcap h2, fun p cs p' xs h hc => ?_⟩
    simp only [Outcome.ok.injEq] at h
    subst h
    exact frugal_bound hcap (asyncCalls_keeps (N := bufPoll cap scriptConn.logged) (frugal_conn cap (dataReads src))
      (frugal_poll cap (dataReads src)) cs h2 hc)

/-! ## Without one -/

/-- The session of the blocking API has used up what came with the garbage. -/
def SyncDrained (s : Bytes × Bool) : Prop := s.2 = true ∨ s.1 = []

theorem syncRead_drained {X : Type} {rd : X → Nat → Option (X × ReadRes)} {s s' : syncN.Sess × X} {n : Nat} {x : ReadRes}
    (hn : 0 < n) (h : SyncDrained s.1) (he : syncN.read rd s n = some (s', x)) :
    SyncDrained s'.1 ∧ rd s.2 n = some (s'.2, x) := by
  obtain ⟨⟨l, b⟩, r⟩ := s
  simp only [syncN, SyncDrained] at he h
  cases b with
  | true =>
    simp only [if_pos] at he
    cases hr : rd r n with
    | none => rw [hr] at he; simp at he
    | some z =>
      obtain ⟨r', z⟩ := z
      rw [hr] at he
      simp only [Option.some.injEq, Prod.mk.injEq] at he
      obtain ⟨rfl, rfl⟩ := he
      exact ⟨.inl rfl, rfl⟩
  | false =>
    simp only [Bool.false_eq_true, false_or] at h
    subst h
    simp only [Bool.false_eq_true, if_false, List.take_nil, show n ≠ 0 by omega] at he
    cases hr : rd r n with
    | none => rw [hr] at he; simp at he
    | some z =>
      obtain ⟨r', z⟩ := z
      rw [hr] at he
      simp only [Option.some.injEq, Prod.mk.injEq] at he
      obtain ⟨rfl, rfl⟩ := he
      exact ⟨.inl rfl, rfl⟩

theorem readExactN_drained {X : Type} {rd : X → Nat → Option (X × ReadRes)} (retry : Bool) :
    ∀ {fuel : Nat} {s s' : syncN.Sess × X} {need : Nat} {acc : Bytes} {y : Except ErrorKind Bytes}, SyncDrained s.1 →
    readExactN fuel (syncN.read rd) retry s need acc = some (s', y) →
    SyncDrained s'.1 ∧ readExactN fuel rd retry s.2 need acc = some (s'.2, y) := by
  intro fuel
  induction fuel with
  | zero => intro s s' need acc y _ he; simp [readExactN] at he
  | succ fuel ih =>
    intro s s' need acc y hs he
    unfold readExactN at he ⊢
    by_cases h0 : need = 0
    · simp only [if_pos h0, Option.some.injEq, Prod.mk.injEq] at he ⊢
      obtain ⟨rfl, rfl⟩ := he
      exact ⟨hs, rfl, rfl⟩
    · simp only [if_neg h0] at he ⊢
      cases hr : syncN.read rd s need with
      | none => rw [hr] at he; simp at he
      | some z =>
      obtain ⟨s1, z⟩ := z
      obtain ⟨h1, h2⟩ := syncRead_drained (by omega) hs hr
      rw [hr] at he
      rw [h2]
      rcases z with (_ | ⟨b, bs⟩) | k
      · simp only [Option.some.injEq, Prod.mk.injEq] at he ⊢
        obtain ⟨rfl, rfl⟩ := he
        exact ⟨h1, rfl, rfl⟩
      · exact ih h1 he
      · simp only at he ⊢
        split at he
        · rename_i hk
          rw [if_pos hk]
          exact ih h1 he
        · rename_i hk
          rw [if_neg hk]
          simp only [Option.some.injEq, Prod.mk.injEq] at he ⊢
          obtain ⟨rfl, rfl⟩ := he
          exact ⟨h1, rfl, rfl⟩

theorem decryptPacketLen_pos {c c' : InboundCipher} {lb : Bytes} {n : Nat}
    (h : c.decryptPacketLen P prof lb = (c', .ok n)) : 17 ≤ n := by
  unfold InboundCipher.decryptPacketLen at h
  split at h
  · simp at h
  · simp only [Prod.mk.injEq, Outcome.ok.injEq] at h
    rw [← h.2]
    simp only [NUM_HEADER_BYTES, NUM_TAG_BYTES]; omega

/-- The shape of `read` of the blocking API: what it reads exactly, and when it succeeds. -/
theorem syncReadN_shape {N : Conn σ} {c c' : InboundCipher} {s s' : syncN.Sess × ConnRun σ} {x : Outcome ProtocolError Payload}
    (he : syncReadN fuel N P prof c s = some ((c', s'), x)) :
    (∃ y, readExactN fuel (syncN.read N.readRun) true s 3 [] = some (s', y) ∧ ∀ p, x ≠ .ok p) ∨
    ∃ s1 lb n y, readExactN fuel (syncN.read N.readRun) true s 3 [] = some (s1, .ok lb) ∧ 17 ≤ n ∧
      readExactN fuel (syncN.read N.readRun) true s1 n [] = some (s', y) ∧
      ∀ p, x = .ok p → ∃ pb c1 c2 ty d, y = .ok pb ∧ InboundCipher.decryptToVec P prof c1 pb none = (c2, .ok (ty, d)) ∧
        p = .decrypted d := by
  unfold syncReadN at he
  simp only [NUM_LENGTH_BYTES] at he
  cases h1 : readExactN fuel (syncN.read N.readRun) true s 3 [] with
  | none => rw [h1] at he; simp at he
  | some z =>
  obtain ⟨s1, y1⟩ := z
  rw [h1] at he
  cases y1 with
  | error k =>
    simp only [Option.some.injEq, Prod.mk.injEq] at he
    obtain ⟨⟨rfl, rfl⟩, rfl⟩ := he
    exact .inl ⟨_, rfl, by simp⟩
  | ok lb =>
  simp only at he
  cases h2 : c.decryptPacketLen P prof lb with
  | mk c1 z =>
  rw [h2] at he
  cases z with
  | panic =>
    simp only [Option.some.injEq, Prod.mk.injEq] at he
    obtain ⟨⟨rfl, rfl⟩, rfl⟩ := he
    exact .inl ⟨_, rfl, by simp⟩
  | err e =>
    simp only [Option.some.injEq, Prod.mk.injEq] at he
    obtain ⟨⟨rfl, rfl⟩, rfl⟩ := he
    exact .inl ⟨_, rfl, by simp⟩
  | ok n =>
  right
  simp only at he
  cases h3 : readExactN fuel (syncN.read N.readRun) true s1 n [] with
  | none => rw [h3] at he; simp at he
  | some z =>
  obtain ⟨s2, y2⟩ := z
  rw [h3] at he
  refine ⟨s1, lb, n, y2, rfl, decryptPacketLen_pos h2, ?_⟩
  cases y2 with
  | error k =>
    simp only [Option.some.injEq, Prod.mk.injEq] at he
    obtain ⟨⟨rfl, rfl⟩, rfl⟩ := he
    exact ⟨h3, by simp⟩
  | ok pb =>
  simp only at he
  cases h4 : c1.decryptToVec P prof pb none with
  | mk c2 z =>
  rw [h4] at he
  rcases z with ⟨ty, d⟩ | e | _
  · simp only at he
    cases h5 : Payload.mkDecrypted prof d with
    | none =>
      rw [h5] at he
      simp only [Option.some.injEq, Prod.mk.injEq] at he
      obtain ⟨⟨rfl, rfl⟩, rfl⟩ := he
      exact ⟨h3, by simp⟩
    | some q =>
      rw [h5] at he
      simp only [Option.some.injEq, Prod.mk.injEq] at he
      obtain ⟨⟨rfl, rfl⟩, rfl⟩ := he
      refine ⟨h3, fun p hp => ⟨pb, c1, c2, ty, d, rfl, h4, ?_⟩⟩
      simp only [Outcome.ok.injEq] at hp
      subst hp
      unfold Payload.mkDecrypted at h5
      split at h5
      · simp at h5
      · simpa using h5.symm
  · simp only [Option.some.injEq, Prod.mk.injEq] at he
    obtain ⟨⟨rfl, rfl⟩, rfl⟩ := he
    exact ⟨h3, by simp⟩
  · simp only [Option.some.injEq, Prod.mk.injEq] at he
    obtain ⟨⟨rfl, rfl⟩, rfl⟩ := he
    exact ⟨h3, by simp⟩


/-- The bytes that the session still has from the garbage loop of the handshake. -/
def SyncN.leftover (s : Bytes × Bool) : Nat := if s.2 then 0 else s.1.length

def AsyncN.leftover (s : Bytes × Nat) : Nat := s.1.length - s.2

theorem readRun_dataReads {N : Conn σ} {r r' : ConnRun σ} {n : Nat} {x : ReadRes} (h : N.readRun r n = some (r', x)) :
    dataReads r.answers ≤ dataReads r'.answers ∧ (∀ b bs, x = .ok (b :: bs) → dataReads r'.answers = dataReads r.answers + 1) := by
  rw [(readRun_answers h).1, dataReads_append]
  refine ⟨Nat.le_add_right _ _, ?_⟩
  rintro b bs rfl
  simp [dataReads, REv.gives]

theorem syncRead_pays {N : Conn σ} {s s' : syncN.Sess × ConnRun σ} {n : Nat} {x : ReadRes} (hn : 0 < n)
    (he : syncN.read N.readRun s n = some (s', x)) :
    dataReads s.2.answers ≤ dataReads s'.2.answers ∧ SyncN.leftover s'.1 ≤ SyncN.leftover s.1 ∧
    ∀ b bs, x = .ok (b :: bs) → dataReads s.2.answers + 1 ≤ dataReads s'.2.answers ∨
      SyncN.leftover s'.1 + (b :: bs).length ≤ SyncN.leftover s.1 := by
  obtain ⟨⟨l, b⟩, r⟩ := s
  simp only [syncN] at he
  cases b with
  | true =>
    simp only [if_pos] at he
    cases hr : N.readRun r n with
    | none => rw [hr] at he; simp at he
    | some z =>
      obtain ⟨r', z⟩ := z
      obtain ⟨h1, h2⟩ := readRun_dataReads hr
      rw [hr] at he
      simp only [Option.some.injEq, Prod.mk.injEq] at he
      obtain ⟨rfl, rfl⟩ := he
      exact ⟨h1, Nat.le_refl _, fun b bs hx => .inl (Nat.le_of_eq (h2 b bs hx).symm)⟩
  | false =>
    simp only [Bool.false_eq_true, if_false] at he
    cases ht : l.take n with
    | nil =>
      rw [ht] at he
      simp only [show n ≠ 0 by omega, if_false] at he
      cases hr : N.readRun r n with
      | none => rw [hr] at he; simp at he
      | some z =>
        obtain ⟨r', z⟩ := z
        obtain ⟨h1, h2⟩ := readRun_dataReads hr
        rw [hr] at he
        simp only [Option.some.injEq, Prod.mk.injEq] at he
        obtain ⟨rfl, rfl⟩ := he
        exact ⟨h1, by simp [SyncN.leftover], fun b bs hx => .inl (Nat.le_of_eq (h2 b bs hx).symm)⟩
    | cons b bs =>
      rw [ht] at he
      simp only [Option.some.injEq, Prod.mk.injEq] at he
      obtain ⟨rfl, rfl⟩ := he
      have hl : (b :: bs).length = min n l.length := by rw [← ht]; simp
      refine ⟨Nat.le_refl _, by simp [SyncN.leftover], fun b' bs' hx => .inr ?_⟩
      simp only [ReadRes.ok.injEq] at hx
      rw [← hx, hl]
      simp only [SyncN.leftover, Bool.false_eq_true, if_false, List.length_drop]
      omega

theorem readExactN_pays {N : Conn σ} (retry : Bool) : ∀ {fuel : Nat} {s s' : syncN.Sess × ConnRun σ} {need : Nat} {acc : Bytes}
    {y : Except ErrorKind Bytes}, readExactN fuel (syncN.read N.readRun) retry s need acc = some (s', y) →
    dataReads s.2.answers ≤ dataReads s'.2.answers ∧ SyncN.leftover s'.1 ≤ SyncN.leftover s.1 ∧
    ∀ v, y = .ok v → dataReads s.2.answers + 1 ≤ dataReads s'.2.answers ∨
      SyncN.leftover s'.1 + need ≤ SyncN.leftover s.1 := by
  intro fuel
  induction fuel with
  | zero => intro s s' need acc y he; simp [readExactN] at he
  | succ fuel ih =>
    intro s s' need acc y he
    unfold readExactN at he
    by_cases h0 : need = 0
    · simp only [if_pos h0, Option.some.injEq, Prod.mk.injEq] at he
      obtain ⟨rfl, rfl⟩ := he
      exact ⟨Nat.le_refl _, Nat.le_refl _, fun _ _ => by omega⟩
    · simp only [if_neg h0] at he
      cases hr : syncN.read N.readRun s need with
      | none => rw [hr] at he; simp at he
      | some z =>
      obtain ⟨s1, z⟩ := z
      obtain ⟨h1, h2, h3⟩ := syncRead_pays (by omega) hr
      rw [hr] at he
      rcases z with (_ | ⟨b, bs⟩) | k
      · simp only [Option.some.injEq, Prod.mk.injEq] at he
        obtain ⟨rfl, rfl⟩ := he
        exact ⟨h1, h2, by simp⟩
      · obtain ⟨i1, i2, i3⟩ := ih he
        refine ⟨by omega, by omega, fun v hv => ?_⟩
        have := h3 b bs rfl
        have := i3 v hv
        omega
      · simp only at he
        split at he
        · obtain ⟨i1, i2, i3⟩ := ih he
          refine ⟨by omega, by omega, fun v hv => ?_⟩
          have := i3 v hv
          omega
        · simp only [Option.some.injEq, Prod.mk.injEq] at he
          obtain ⟨rfl, rfl⟩ := he
          exact ⟨h1, h2, by simp⟩

theorem writeN_answers {f : Flavour} {N : Conn σ} {c c' : OutboundCipher} {r r' : ConnRun σ} {q : Payload}
    {x : Outcome ProtocolError Unit} (he : writeN fuel f N P prof c r q = some ((c', r'), x)) : r'.answers = r.answers := by
  have key : ∀ {fuel retry r b r' y}, N.writeAll fuel retry r b = some (r', y) → r'.answers = r.answers := by
    intro fuel
    induction fuel with
    | zero => intro retry r b r' y h; simp [Conn.writeAll] at h
    | succ fuel ih =>
      intro retry r b r' y h
      unfold Conn.writeAll Conn.writeRun at h
      grind
  unfold writeN Conn.send Conn.flushRun at he
  have k := @key fuel f.retry r
  grind

/-- C82, blocking API, without a `BufReader`: two calls that give bytes for every payload, apart from what came with the
garbage.  On any transport, whatever else is called and whatever else happens. -/
theorem C82_plain_sync {N : Conn σ} (cs : List Call) : ∀ {p p' : SyncN σ} {xs : List Answer},
    p.calls fuel N P prof cs = some (p', xs) →
    3 * dataReads p.run.answers + 6 * (Answer.payloads xs).length ≤
      3 * dataReads p'.run.answers + SyncN.leftover p.sess := by
  have key : ∀ (cs : List Call) {p p' : SyncN σ} {xs : List Answer}, p.calls fuel N P prof cs = some (p', xs) →
      3 * dataReads p.run.answers + 6 * (Answer.payloads xs).length + SyncN.leftover p'.sess ≤
        3 * dataReads p'.run.answers + SyncN.leftover p.sess := by
    intro cs
    induction cs with
    | nil =>
      intro p p' xs h
      simp only [SyncN.calls, Option.some.injEq, Prod.mk.injEq] at h
      obtain ⟨rfl, rfl⟩ := h
      simp [Answer.payloads]
    | cons c cs ih =>
      intro p p' xs h
      cases c with
      | read =>
        simp only [SyncN.calls, SyncN.read] at h
        cases hr : syncReadN fuel N P prof p.inbound (p.sess, p.run) with
        | none => rw [hr] at h; simp at h
        | some z =>
        obtain ⟨⟨c1, s1, r1⟩, x⟩ := z
        rw [hr] at h
        simp only at h
        cases hc : SyncN.calls fuel N P prof ⟨c1, s1, p.outbound, r1⟩ cs with
        | none => rw [hc] at h; simp at h
        | some z =>
        obtain ⟨p2, xs2⟩ := z
        rw [hc] at h
        simp only [Option.some.injEq, Prod.mk.injEq] at h
        obtain ⟨rfl, rfl⟩ := h
        have h2 := ih hc
        simp only at h2
        have h1 : 3 * dataReads p.run.answers + 6 * (Answer.payloads [.read x]).length + SyncN.leftover s1 ≤
            3 * dataReads r1.answers + SyncN.leftover p.sess := by
          rcases syncReadN_shape hr with ⟨y, e1, hx⟩ | ⟨⟨s2, r2⟩, lb, n, y, e1, hn, e2, hx⟩
          · obtain ⟨i1, i2, -⟩ := readExactN_pays true e1
            have : Answer.payloads [.read x] = [] := by
              cases x with
              | ok q => exact absurd rfl (hx q)
              | _ => rfl
            rw [this]
            simp only [List.length_nil]
            simp only at i1 i2
            omega
          · obtain ⟨i1, i2, i3⟩ := readExactN_pays true e1
            obtain ⟨j1, j2, j3⟩ := readExactN_pays true e2
            have i3 := i3 lb rfl
            simp only at i1 i2 i3 j1 j2 j3
            cases x with
            | ok q =>
              obtain ⟨pb, -, -, -, -, rfl, -⟩ := hx q rfl
              have j3 := j3 pb rfl
              simp only [Answer.payloads, List.length_cons, List.length_nil]
              omega
            | err e => simp only [Answer.payloads, List.length_nil]; omega
            | panic => simp only [Answer.payloads, List.length_nil]; omega
        have h3 : (Answer.payloads (.read x :: xs2)).length = (Answer.payloads [.read x]).length + (Answer.payloads xs2).length := by
          cases x <;> simp [Answer.payloads, Nat.add_comm]
        rw [h3]
        omega
      | write q =>
        simp only [SyncN.calls, SyncN.write] at h
        cases hr : writeN fuel .sync N P prof p.outbound p.run q with
        | none => rw [hr] at h; simp at h
        | some z =>
        obtain ⟨⟨c1, r1⟩, x⟩ := z
        rw [hr] at h
        simp only at h
        cases hc : SyncN.calls fuel N P prof ⟨p.inbound, p.sess, c1, r1⟩ cs with
        | none => rw [hc] at h; simp at h
        | some z =>
        obtain ⟨p2, xs2⟩ := z
        rw [hc] at h
        simp only [Option.some.injEq, Prod.mk.injEq] at h
        obtain ⟨rfl, rfl⟩ := h
        have h2 := ih hc
        simp only [writeN_answers hr] at h2
        simp only [Answer.payloads]
        exact h2
  intro p p' xs h
  have := key cs h
  omega


/-- What is paid for, in thirds of a call, when a `read` is half done. -/
def DecryptState.paid : DecryptState → Nat
  | .readingLength _ n => min n 3
  | .readingPayload _ n => 3 + min n 3

/-- The buffers in which the state collects bytes have room for a length. -/
def DecryptState.Roomy : DecryptState → Prop
  | .readingLength b _ => 3 ≤ b.length
  | .readingPayload b _ => 3 ≤ b.length

theorem sessPollN_pays {N : PollConn σ} {s s' : (Bytes × Nat) × ConnRun σ} {n : Nat} {x : PollRead}
    (he : sessPollN N s n = (s', x)) :
    dataReads s.2.answers ≤ dataReads s'.2.answers ∧ AsyncN.leftover s'.1 ≤ AsyncN.leftover s.1 ∧
    ∀ b bs, x = .ready (.ok (b :: bs)) → dataReads s.2.answers + 1 ≤ dataReads s'.2.answers ∨
      AsyncN.leftover s'.1 + (b :: bs).length ≤ AsyncN.leftover s.1 := by
  obtain ⟨⟨l, k⟩, r⟩ := s
  unfold sessPollN at he
  simp only at he
  split at he
  · rename_i hk
    simp only [Prod.mk.injEq] at he
    obtain ⟨rfl, rfl⟩ := he
    refine ⟨Nat.le_refl _, by simp only [AsyncN.leftover]; omega, fun b bs hx => .inr ?_⟩
    simp only [PollRead.ready.injEq, ReadRes.ok.injEq] at hx
    rw [← hx]
    simp only [AsyncN.leftover, List.length_take, List.length_drop]
    omega
  · cases hr : N.pollRun r n with
    | mk r' z =>
    have ha := (pollRun_answers hr).1
    rw [hr] at he
    simp only [Prod.mk.injEq] at he
    obtain ⟨rfl, rfl⟩ := he
    rw [ha, dataReads_append]
    refine ⟨Nat.le_add_right _ _, Nat.le_refl _, ?_⟩
    rintro b bs rfl
    left
    simp [dataReads, REv.gives]

theorem pollFillN_pays {N : PollConn σ} : ∀ {fuel : Nat} {s : (Bytes × Nat) × ConnRun σ} {buf : Bytes} {n : Nat} {x : FillN σ},
    pollFillN fuel N s buf n = some x → ∃ s' buf' n',
      (x = .full s' buf' n' ∧ buf'.length ≤ n' ∨ x = .pending s' buf' n' ∨ ∃ k, x = .err s' buf' n' k) ∧
      buf.length ≤ buf'.length ∧
      3 * dataReads s.2.answers + min n' 3 + AsyncN.leftover s'.1 ≤
        3 * dataReads s'.2.answers + min n 3 + AsyncN.leftover s.1 := by
  intro fuel
  induction fuel with
  | zero => intro s buf n x he; simp [pollFillN] at he
  | succ fuel ih =>
    intro s buf n x he
    unfold pollFillN at he
    by_cases h0 : n < buf.length
    · simp only [if_pos h0] at he
      cases hr : sessPollN N s (buf.length - n) with
      | mk s1 z =>
      obtain ⟨h1, h2, h3⟩ := sessPollN_pays hr
      rw [hr] at he
      rcases z with ((_ | ⟨b, bs⟩) | k) | _
      · simp only [Option.some.injEq] at he
        exact ⟨s1, buf, n, .inr (.inr ⟨_, he.symm⟩), Nat.le_refl _, by omega⟩
      · obtain ⟨s', buf', n', i1, i2, i3⟩ := ih he
        refine ⟨s', buf', n', i1, ?_, ?_⟩
        · refine Nat.le_trans ?_ i2
          simp only [writeAt, List.length_append, List.length_take, List.length_drop]
          omega
        · have := h3 b bs rfl
          simp only [List.length_cons] at this i3
          omega
      · simp only [Option.some.injEq] at he
        exact ⟨s1, buf, n, .inr (.inr ⟨_, he.symm⟩), Nat.le_refl _, by omega⟩
      · simp only [Option.some.injEq] at he
        exact ⟨s1, buf, n, .inr (.inl he.symm), Nat.le_refl _, by omega⟩
    · simp only [if_neg h0, Option.some.injEq] at he
      exact ⟨s, buf, n, .inl ⟨he.symm, by omega⟩, Nat.le_refl _, Nat.le_refl _⟩

/-- The payload of a poll that is ready with one. -/
def PollResult.payloads : PollResult → Nat
  | .ready (.ok _) => 1
  | _ => 0

theorem pollPayloadN_pays {N : PollConn σ} {c : InboundCipher} {s : (Bytes × Nat) × ConnRun σ} {buf : Bytes} {n : Nat}
    {r' : AsyncReaderN σ} {x : PollResult} (hb : 3 ≤ buf.length)
    (he : AsyncReaderN.pollPayload fuel N P prof c s buf n = some (r', x)) :
    r'.state.Roomy ∧
    3 * dataReads s.2.answers + 6 * x.payloads + r'.state.paid + AsyncN.leftover r'.reader.1 ≤
      3 * dataReads r'.reader.2.answers + (3 + min n 3) + AsyncN.leftover s.1 := by
  unfold AsyncReaderN.pollPayload at he
  cases hf : pollFillN fuel N s buf n with
  | none => rw [hf] at he; simp at he
  | some y =>
  obtain ⟨s', buf', n', h1, h2, h3⟩ := pollFillN_pays hf
  rw [hf] at he
  rcases h1 with ⟨rfl, hn⟩ | rfl | ⟨k, rfl⟩
  · simp only at he
    have hkeep : ∀ c', (⟨c', s', .readingPayload buf' n'⟩ : AsyncReaderN σ).state.Roomy := fun _ => by
      simp only [DecryptState.Roomy]; omega
    repeat' split at he
    all_goals simp only [Option.some.injEq, Prod.mk.injEq] at he
    all_goals obtain ⟨rfl, rfl⟩ := he
    all_goals simp only [DecryptState.Roomy, DecryptState.paid, PollResult.payloads, DecryptState.initReadingLength, zeros,
      NUM_LENGTH_BYTES, List.length_replicate]
    all_goals omega
  · simp only [Option.some.injEq, Prod.mk.injEq] at he
    obtain ⟨rfl, rfl⟩ := he
    simp only [DecryptState.Roomy, DecryptState.paid, PollResult.payloads]
    omega
  · simp only [Option.some.injEq, Prod.mk.injEq] at he
    obtain ⟨rfl, rfl⟩ := he
    simp only [DecryptState.Roomy, DecryptState.paid, PollResult.payloads]
    omega

theorem pollN_pays {N : PollConn σ} {r r' : AsyncReaderN σ} {x : PollResult} (hr : r.state.Roomy)
    (he : AsyncReaderN.poll fuel N P prof r = some (r', x)) :
    r'.state.Roomy ∧
    3 * dataReads r.reader.2.answers + 6 * x.payloads + r'.state.paid + AsyncN.leftover r'.reader.1 ≤
      3 * dataReads r'.reader.2.answers + r.state.paid + AsyncN.leftover r.reader.1 := by
  unfold AsyncReaderN.poll at he
  cases hst : r.state with
  | readingPayload buf n =>
    rw [hst] at he hr
    exact pollPayloadN_pays hr he
  | readingLength buf n =>
    rw [hst] at he hr
    simp only [DecryptState.Roomy] at hr
    simp only at he
    cases hf : pollFillN fuel N r.reader buf n with
    | none => rw [hf] at he; simp at he
    | some y =>
    obtain ⟨s', buf', n', h1, h2, h3⟩ := pollFillN_pays hf
    rw [hf] at he
    rcases h1 with ⟨rfl, hn⟩ | rfl | ⟨k, rfl⟩
    · simp only at he
      cases hd : r.cipher.decryptPacketLen P prof buf' with
      | mk c1 z =>
      rw [hd] at he
      cases z with
      | ok len =>
        have h4 := decryptPacketLen_pos hd
        have h5 := pollPayloadN_pays (by simp only [zeros, List.length_replicate]; omega) he
        refine ⟨h5.1, ?_⟩
        have := h5.2
        have hp : (DecryptState.readingLength buf n).paid = min n 3 := rfl
        rw [hp]
        omega
      | err e =>
        simp only [Option.some.injEq, Prod.mk.injEq] at he
        obtain ⟨rfl, rfl⟩ := he
        simp only [DecryptState.Roomy, DecryptState.paid, PollResult.payloads]
        omega
      | panic =>
        simp only [Option.some.injEq, Prod.mk.injEq] at he
        obtain ⟨rfl, rfl⟩ := he
        simp only [DecryptState.Roomy, DecryptState.paid, PollResult.payloads]
        omega
    · simp only [Option.some.injEq, Prod.mk.injEq] at he
      obtain ⟨rfl, rfl⟩ := he
      simp only [DecryptState.Roomy, DecryptState.paid, PollResult.payloads]
      omega
    · simp only [Option.some.injEq, Prod.mk.injEq] at he
      obtain ⟨rfl, rfl⟩ := he
      simp only [DecryptState.Roomy, DecryptState.paid, PollResult.payloads]
      omega

/-- C82, asynchronous API, without a `BufReader`: the same, from a session that is between two messages, however the polls
fall. -/
theorem C82_plain_async {N : PollConn σ} (cs : List Call) {p p' : AsyncN σ} {xs : List Answer}
    (hp : p.state = .initReadingLength) (he : p.calls fuel N P prof cs = some (p', xs)) :
    3 * dataReads p.run.answers + 6 * (Answer.payloads xs).length ≤
      3 * dataReads p'.run.answers + AsyncN.leftover p.sess := by
  have key : ∀ (cs : List Call) {p p' : AsyncN σ} {xs : List Answer}, p.state.Roomy →
      p.calls fuel N P prof cs = some (p', xs) →
      3 * dataReads p.run.answers + 6 * (Answer.payloads xs).length + p'.state.paid + AsyncN.leftover p'.sess ≤
        3 * dataReads p'.run.answers + p.state.paid + AsyncN.leftover p.sess := by
    intro cs
    induction cs with
    | nil =>
      intro p p' xs _ h
      simp only [AsyncN.calls, Option.some.injEq, Prod.mk.injEq] at h
      obtain ⟨rfl, rfl⟩ := h
      simp [Answer.payloads]
    | cons c cs ih =>
      intro p p' xs hr h
      cases c with
      | read =>
        simp only [AsyncN.calls, AsyncN.pollRead] at h
        cases hq : AsyncReaderN.poll fuel N P prof ⟨p.inbound, (p.sess, p.run), p.state⟩ with
        | none => rw [hq] at h; simp at h
        | some z =>
        obtain ⟨⟨c1, ⟨s1, r1⟩, st⟩, x⟩ := z
        rw [hq] at h
        simp only at h
        cases hc : AsyncN.calls fuel N P prof ⟨c1, s1, st, p.outbound, r1⟩ cs with
        | none => rw [hc] at h; simp at h
        | some z =>
        obtain ⟨p2, xs2⟩ := z
        rw [hc] at h
        simp only [Option.some.injEq, Prod.mk.injEq] at h
        obtain ⟨rfl, rfl⟩ := h
        obtain ⟨h1, h2⟩ := pollN_pays (r := ⟨p.inbound, (p.sess, p.run), p.state⟩) hr hq
        have h3 := ih h1 hc
        simp only at h2 h3
        have h4 : (Answer.payloads (x.answer :: xs2)).length = x.payloads + (Answer.payloads xs2).length := by
          rcases x with _ | (_ | _ | _) <;> simp [PollResult.answer, Answer.payloads, PollResult.payloads, Nat.add_comm]
        rw [h4]
        omega
      | write q =>
        simp only [AsyncN.calls, AsyncN.write] at h
        cases hw : writeN fuel .async N.toConn P prof p.outbound p.run q with
        | none => rw [hw] at h; simp at h
        | some z =>
        obtain ⟨⟨c1, r1⟩, x⟩ := z
        rw [hw] at h
        simp only at h
        cases hc : AsyncN.calls fuel N P prof ⟨p.inbound, p.sess, p.state, c1, r1⟩ cs with
        | none => rw [hc] at h; simp at h
        | some z =>
        obtain ⟨p2, xs2⟩ := z
        rw [hc] at h
        simp only [Option.some.injEq, Prod.mk.injEq] at h
        obtain ⟨rfl, rfl⟩ := h
        have h2 := ih (p := ⟨p.inbound, p.sess, p.state, c1, r1⟩) hr hc
        simp only [writeN_answers hw] at h2
        simp only [Answer.payloads]
        exact h2
  have h := key cs (by rw [hp]; simp [DecryptState.Roomy, DecryptState.initReadingLength, zeros, NUM_LENGTH_BYTES]) he
  rw [hp] at h
  simp only [DecryptState.initReadingLength, DecryptState.paid] at h
  omega


/-! ## What comes with the garbage -/

theorem readExactN_length {X : Type} {rd : X → Nat → Option (X × ReadRes)}
    (h : ∀ s n s' bs, rd s n = some (s', .ok bs) → bs.length ≤ n) (retry : Bool) :
    ∀ {fuel s need acc s' out}, readExactN fuel rd retry s need acc = some (s', .ok out) → out.length = acc.length + need := by
  intro fuel
  induction fuel with
  | zero => intro s need acc s' out he; simp [readExactN] at he
  | succ fuel ih =>
    intro s need acc s' out he
    unfold readExactN at he
    by_cases h0 : need = 0
    · simp only [if_pos h0, Option.some.injEq, Prod.mk.injEq, Except.ok.injEq] at he
      obtain ⟨-, rfl⟩ := he
      omega
    · simp only [if_neg h0] at he
      cases hr : rd s need with
      | none => rw [hr] at he; simp at he
      | some z =>
      obtain ⟨s1, z⟩ := z
      rw [hr] at he
      rcases z with (_ | ⟨b, bs⟩) | k
      · simp at he
      · have h1 := h _ _ _ _ hr
        have := ih he
        rw [this, List.length_append]
        omega
      · simp only at he
        split at he
        · exact ih he
        · simp at he

theorem readRun_length {N : Conn σ} (hN : N.Keeps) : ∀ s n s' bs, N.readRun s n = some (s', .ok bs) → bs.length ≤ n := by
  intro s n s' bs h
  unfold Conn.readRun at h
  split at h <;> simp only [Option.some.injEq, Prod.mk.injEq, ReadRes.ok.injEq, reduceCtorEq, and_false] at h
  obtain ⟨-, rfl⟩ := h
  exact hN.read _ _ _ _ (by assumption)

/-- The bytes that follow the terminator came in one `read`. -/
theorem garbageLoopN_leftover {N : Conn σ} (hN : N.Keeps) : ∀ {fuel : Nat} {h : HsSentVersion} {old chunk : Bytes}
    {r r' : ConnRun σ} {h' : HsReceivedGarbage} {n : Nat} {buf : Bytes}, h.remoteTerminator.length = 16 →
    (∀ i, ¬ Spec.OccursAt h.remoteTerminator old i) → chunk.length ≤ 256 →
    garbageLoopN fuel N h (old ++ chunk) r = some (r', .ok (h', n, buf)) → (buf.drop n).length ≤ 255 := by
  intro fuel
  induction fuel with
  | zero => intro h old chunk r r' h' n buf _ _ _ he; simp [garbageLoopN] at he
  | succ fuel ih =>
    intro h old chunk r r' h' n buf ht hold hc he
    unfold garbageLoopN at he
    cases hg : h.receiveGarbage (old ++ chunk) with
    | panic => rw [hg] at he; simp at he
    | err e => rw [hg] at he; simp at he
    | ok g =>
    rw [hg] at he
    cases g with
    | foundGarbage h1 m =>
      simp only [Option.some.injEq, Prod.mk.injEq, Outcome.ok.injEq] at he
      obtain ⟨-, -, rfl, rfl⟩ := he
      obtain ⟨i, -, ⟨pre, post, hb, hl⟩, -, rfl, -⟩ := (C21_found h ht _ _ _).1 hg
      simp only [List.length_drop, List.length_append]
      by_cases hin : i + 16 ≤ old.length
      · exfalso
        apply hold i
        refine ⟨pre, old.drop (i + 16), ?_, hl⟩
        have h1 : old = (old ++ chunk).take old.length := by simp
        rw [hb] at h1
        have h2 : old.take (i + 16) = pre ++ h.remoteTerminator := by
          rw [h1, List.take_take, Nat.min_eq_left hin]
          exact List.take_left' (by simp [hl, ht])
        rw [← h2, List.take_append_drop]
      · omega
    | needMoreData h1 =>
      obtain ⟨rfl, -, hno⟩ := (C21_need_more h ht _ _).1 hg
      simp only at he
      cases hr : N.readRun r 256 with
      | none => rw [hr] at he; simp at he
      | some z =>
      obtain ⟨r1, z⟩ := z
      rw [hr] at he
      rcases z with (_ | ⟨b, bs⟩) | k
      · simp at he
      · exact ih ht hno (readRun_length hN _ _ _ _ hr) he
      · simp at he

/-- The session reader of an API only uses up what came with the garbage. -/
def ApiN.Uses (A : ApiN) (left : A.Sess → Nat) : Prop :=
  ∀ {S : Type} (rd : S → Nat → Option (S × ReadRes)) (k : Nat), ReadKeeps (A.read rd) (fun s => left s.1 ≤ k)

theorem syncN_uses : syncN.Uses SyncN.leftover := by
  rintro S rd k ⟨⟨l, b⟩, r⟩ n ⟨⟨l', b'⟩, r'⟩ x hn hs he
  simp only [syncN, SyncN.leftover] at he hs ⊢
  split at he
  · rename_i hb
    split at he
    · simp at he
    · simp only [Option.some.injEq, Prod.mk.injEq] at he
      obtain ⟨⟨⟨rfl, rfl⟩, rfl⟩, rfl⟩ := he
      exact hs
  · rename_i hb
    split at he
    · split at he
      · omega
      · split at he
        · simp at he
        · simp only [Option.some.injEq, Prod.mk.injEq] at he
          obtain ⟨⟨⟨rfl, rfl⟩, rfl⟩, rfl⟩ := he
          simp
    · simp only [Option.some.injEq, Prod.mk.injEq] at he
      obtain ⟨⟨⟨rfl, rfl⟩, rfl⟩, rfl⟩ := he
      simp only [hb, Bool.false_eq_true, if_false, List.length_drop] at hs ⊢
      omega

theorem asyncN_uses : asyncN.Uses AsyncN.leftover := by
  rintro S rd k ⟨⟨l, j⟩, r⟩ n ⟨⟨l', j'⟩, r'⟩ x hn hs he
  simp only [asyncN, AsyncN.leftover] at he hs ⊢
  split at he
  · simp only [Option.some.injEq, Prod.mk.injEq] at he
    obtain ⟨⟨⟨rfl, rfl⟩, rfl⟩, rfl⟩ := he
    omega
  · split at he
    · simp at he
    · simp only [Option.some.injEq, Prod.mk.injEq] at he
      obtain ⟨⟨⟨rfl, rfl⟩, rfl⟩, rfl⟩ := he
      exact hs

theorem versionLoopN_leftover {A : ApiN} {left : A.Sess → Nat} (hA : A.Uses left) {N : Conn σ} {k : Nat} :
    ∀ {fuel hs s r' i o sess}, left s.1 ≤ k → versionLoopN fuel A N P prof hs s = some (r', .ok (i, o, sess)) → left sess ≤ k := by
  intro fuel
  induction fuel with
  | zero => intro hs s r' i o sess _ he; simp [versionLoopN] at he
  | succ fuel ih =>
    intro hs s r' i o sess hr he
    unfold versionLoopN at he
    have h1 := @readExactN_keeps _ _ _ (hA N.readRun k) A.retry fuel
    repeat' split at he
    all_goals grind

theorem handshakeN_leftover (hP : Lawful P) {A : ApiN} {left : A.Sess → Nat} (hA : A.Uses left)
    (hmk : ∀ l, left (A.mkSess l) = l.length) {N : Conn σ} (hN : N.Keeps) {magic rng : Bytes} {role : Role} {g : Option Bytes}
    {d : Option (List Bytes)} {r r' : ConnRun σ} {i : InboundCipher} {o : OutboundCipher} {sess : A.Sess}
    (he : handshakeN fuel A N P prof magic role rng g d r = some (r', .ok (i, o, sess))) : left sess ≤ 255 := by
  unfold handshakeN at he
  split at he
  · simp at he
  · simp at he
  rename_i h0 _
  unfold handshakeWithInitializedN at he
  cases hk : h0.sendKey g (zeros (HsInitialized.sendKeyLen g)) with
  | mk kb z =>
  rw [hk] at he
  cases z with
  | panic => simp at he
  | err e => simp at he
  | ok h1 =>
  simp only at he
  cases hs1 : N.send fuel A.retry r kb with
  | none => rw [hs1] at he; simp at he
  | some z =>
  obtain ⟨r1, z⟩ := z
  rw [hs1] at he
  cases z with
  | error k => simp at he
  | ok u =>
  simp only at he
  cases hr1 : readExactN fuel N.readRun A.retry r1 NUM_ELLIGATOR_SWIFT_BYTES [] with
  | none => rw [hr1] at he; simp at he
  | some z =>
  obtain ⟨r2, z⟩ := z
  rw [hr1] at he
  cases z with
  | error k => simp at he
  | ok key =>
  simp only at he
  cases hrk : h1.receiveKey P key with
  | panic => rw [hrk] at he; simp at he
  | err e => rw [hrk] at he; simp at he
  | ok h2 =>
  rw [hrk] at he
  simp only at he
  cases hv : h2.sendVersion P prof (zeros (HsReceivedKey.sendVersionLen d)) d with
  | mk vb z =>
  rw [hv] at he
  cases z with
  | panic => simp at he
  | err e => simp at he
  | ok h3 =>
  have ht : h3.remoteTerminator.length = 16 := by
    rw [sendVersion_terminator hv]; exact receiveKey_terminators hP hrk _
  simp only at he
  cases hs2 : N.send fuel A.retry r2 vb with
  | none => rw [hs2] at he; simp at he
  | some z =>
  obtain ⟨r3, z⟩ := z
  rw [hs2] at he
  cases z with
  | error k => simp at he
  | ok u =>
  simp only at he
  cases hr2 : readExactN fuel N.readRun A.retry r3 NUM_GARBAGE_TERMINATOR_BYTES [] with
  | none => rw [hr2] at he; simp at he
  | some z =>
  obtain ⟨r4, z⟩ := z
  rw [hr2] at he
  cases z with
  | error k => simp at he
  | ok gb =>
  have hgb := readExactN_length (readRun_length hN) A.retry hr2
  simp only at he
  cases hg : garbageLoopN fuel N h3 gb r4 with
  | none => rw [hg] at he; simp at he
  | some z =>
  obtain ⟨r5, z⟩ := z
  rw [hg] at he
  cases z with
  | panic => simp at he
  | err e => simp at he
  | ok z =>
  obtain ⟨h4, n, buf⟩ := z
  simp only at he
  simp only [NUM_GARBAGE_TERMINATOR_BYTES, List.length_nil, Nat.zero_add] at hgb
  have hl := garbageLoopN_leftover hN (old := []) ht (by
    rintro j ⟨a, b, hab, -⟩
    have := congrArg List.length hab
    simp only [List.length_nil, List.length_append, ht] at this
    omega) (by omega) hg
  exact versionLoopN_leftover hA (by rw [hmk]; exact hl) he

/-- C82, a whole connection of the blocking API without a `BufReader`, on any transport: two calls that give bytes for every
payload, except for at most 85 in the 255 bytes that may have come with the garbage. -/
theorem C82_whole_sync (hP : Lawful P) {N : Conn σ} (hN : N.Keeps) {magic rng : Bytes} {role : Role} {g : Option Bytes}
    {d : Option (List Bytes)} {r r1 : ConnRun σ} {p p' : SyncN σ} {cs : List Call} {xs : List Answer}
    (hnew : SyncN.new fuel N P prof magic role rng g d r = some (r1, .ok p)) (hc : p.calls fuel N P prof cs = some (p', xs)) :
    dataReads r1.answers + 2 * (Answer.payloads xs).length ≤ dataReads p'.run.answers + 85 := by
  have hl : SyncN.leftover p.sess ≤ 255 ∧ p.run = r1 := by
    unfold SyncN.new at hnew
    split at hnew <;> simp only [Option.some.injEq, Prod.mk.injEq, Outcome.ok.injEq, reduceCtorEq, and_false] at hnew
    rename_i hh
    obtain ⟨rfl, rfl⟩ := hnew
    exact ⟨handshakeN_leftover hP syncN_uses (fun _ => rfl) hN hh, rfl⟩
  have := C82_plain_sync cs hc
  rw [hl.2] at this
  omega

/-- C82, a whole connection of the asynchronous API without a `BufReader`. -/
theorem C82_whole_async (hP : Lawful P) {N : PollConn σ} (hN : N.Keeps) {magic rng : Bytes} {role : Role} {g : Option Bytes}
    {d : Option (List Bytes)} {r r1 : ConnRun σ} {p p' : AsyncN σ} {cs : List Call} {xs : List Answer}
    (hnew : AsyncN.new fuel N P prof magic role rng g d r = some (r1, .ok p)) (hc : p.calls fuel N P prof cs = some (p', xs)) :
    dataReads r1.answers + 2 * (Answer.payloads xs).length ≤ dataReads p'.run.answers + 85 := by
  have hl : AsyncN.leftover p.sess ≤ 255 ∧ p.state = .initReadingLength ∧ p.run = r1 := by
    unfold AsyncN.new at hnew
    split at hnew <;> simp only [Option.some.injEq, Prod.mk.injEq, Outcome.ok.injEq, reduceCtorEq, and_false] at hnew
    rename_i hh
    obtain ⟨rfl, rfl⟩ := hnew
    exact ⟨handshakeN_leftover hP asyncN_uses (fun _ => rfl) hN.conn hh, rfl, rfl⟩
  have := C82_plain_async cs hl.2.1 hc
  rw [hl.2.2] at this
  omega

end Bip324
