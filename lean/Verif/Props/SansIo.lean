import Verif.Model.SansIo
import Verif.Props.Differential

/-!
# The documented use of the handshake without I/O: C63

What the examples in the documentation of `receive_garbage` and `receive_version` make of any bytes that arrive in any
pieces.  They complete the handshake with every acceptable peer whose packets have arrived together with its terminator,
and they panic if the packets have not.
-/

namespace Bip324

variable {P : Prims} {prof : Profile}

/-! ## Specification -/

/-- The rules that the examples follow: any length that can be announced. -/
def docRules : Spec.Rules := ⟨2 ^ 24 - 1, fun h => h == 0x80, 4095 + 16⟩

/-- What the verdict on the packets means for the example of `receive_version`: if it would have to wait, it panics. -/
def DocFollows (P : Prims) (kL kP : Bytes) (o : OutboundCipher) (v : Spec.Verdict)
    (r : Outcome Error (CipherSession × Bytes)) : Prop :=
  match v with
  | .waits => r = .panic
  | .forged => r = .err .decryption
  | .complete next rest => ∃ c, r = .ok (c, rest) ∧ c.inbound.At P kL kP next ∧ c.outbound = o
  | .noTerminator => False
  | .tooBig => False

/-- The same for the two examples together, which also leave data on the network. -/
def DriverFollows (P : Prims) (keys : Bytes × Bytes × Bytes) (o : OutboundCipher) (unread : List Bytes)
    (v : Spec.Verdict) (r : Outcome Error (CipherSession × Bytes × List Bytes)) : Prop :=
  match v with
  | .waits => r = .panic
  | .forged => r = .err .decryption
  | .complete next left => ∃ c, r = .ok (c, left, unread) ∧ c.inbound.At P keys.1 keys.2.1 next ∧ c.outbound = o
  | .noTerminator => False
  | .tooBig => False

/-- The state in which the application has sent its version: it knows the keys of the direction towards it. -/
structure HsSentVersion.Knows (P : Prims) (h : HsSentVersion) (keys : Bytes × Bytes × Bytes) : Prop where
  terminator : h.remoteTerminator = keys.2.2
  sixteen : keys.2.2.length = 16
  inbound : h.cipher.inbound.At P keys.1 keys.2.1 0

/-! ## The packets -/

/-- C63: the example of `receive_version`, on any data. -/
theorem C63_version (hP : Lawful P) {kL kP : Bytes} : ∀ (len : Nat) {n : Nat} {h : HsReceivedGarbage}
    {bs : Bytes}, bs.length = len → h.cipher.inbound.At P kL kP n → n + len / 20 + 1 < 2 ^ 32 →
    ∃ v, Spec.JudgePackets docRules P kL kP n (h.remoteGarbage.getD []) bs v ∧
      DocFollows P kL kP h.cipher.outbound v (docVersion P prof h bs) := by
  intro len
  induction len using Nat.strongRecOn with
  | ind len ih =>
  intro n h bs hlen hat hn
  have hlong : docRules.longest = 2 ^ 24 - 1 := rfl
  have hthree : NUM_LENGTH_BYTES = 3 := rfl
  by_cases h3 : bs.length < 3
  · refine ⟨.waits, .waits (.inl h3), ?_⟩
    show docVersion P prof h bs = .panic
    rw [docVersion, if_pos (by omega)]
  obtain ⟨i1, l, hl, hd, hh, hx⟩ := decryptPacketLen_at (prof := prof) hat (by omega) (bs.take 3)
    (by rw [List.length_take]; omega)
  have ha : Spec.Announces P kL n bs l := ⟨hl, hx⟩
  by_cases hshort : bs.length < 3 + (l + 17)
  · refine ⟨.waits, .waits (.inr ⟨l, ha, by omega, by omega⟩), ?_⟩
    show docVersion P prof h bs = .panic
    rw [docVersion, if_neg (by omega)]
    simp only [HsReceivedGarbage.decryptPacketLen, hthree, hd]
    rw [if_pos hshort]
  have hct : ((bs.drop 3).take (l + 17)).length = l + 17 := by rw [List.length_take, List.length_drop]; omega
  have hdl := List.length_drop (i := 3) (l := bs)
  rcases receiveVersion_at (prof := prof) (h := { h with cipher := { h.cipher with inbound := i1 } }) hP hh
    (by omega) ((bs.drop 3).take (l + 17)) (by omega) with ⟨header, contents, i', buf, he, hi', hv⟩ | ⟨hno, hv⟩
  · have hcl : contents.length = l := by
      have := congrArg List.length he
      rw [hct, sealedPart_length hP] at this
      omega
    have hbs : bs = Spec.rawPacket P kL kP n header (h.remoteGarbage.getD []) contents ++ (bs.drop (3 + (l + 17))) := by
      rw [rawPacket_eq, hcl, ← hx]
      have e2 : Spec.sealedPart P kP n header (h.remoteGarbage.getD []) contents = (bs.drop 3).take (l + 17) := he.symm
      rw [e2, List.append_assoc, ← List.drop_drop, List.take_append_drop, List.take_append_drop]
    have hrest : (bs.drop (3 + (l + 17))).length = bs.length - (l + 20) := by
      rw [List.length_drop]; omega
    by_cases h80 : header = 0x80
    · obtain ⟨v, hj, hf⟩ := ih _ (by omega)
        (h := { h with cipher := { h.cipher with inbound := i' }, remoteGarbage := none }) (n := n + 1)
        hrest hi' (by omega)
      refine ⟨v, ?_, ?_⟩
      · rw [hbs]
        exact .decoy (by rw [h80]; rfl) (by omega) (by omega) hj
      · have : docVersion P prof h bs = docVersion P prof
            { h with cipher := { h.cipher with inbound := i' }, remoteGarbage := none } (bs.drop (3 + (l + 17))) := by
          conv => lhs; unfold docVersion
          rw [if_neg (by omega)]
          simp only [HsReceivedGarbage.decryptPacketLen, hthree, hd, slice]
          rw [if_neg hshort]
          simp only [hv, if_pos h80]
        rw [this]
        exact hf
    · refine ⟨.complete (n + 1) (bs.drop (3 + (l + 17))), ?_, { h.cipher with inbound := i' }, ?_, hi', rfl⟩
      · conv => arg 7; rw [hbs]
        exact .version (by simpa [docRules] using h80) (by omega) (by omega)
      · rw [docVersion, if_neg (by omega)]
        simp only [HsReceivedGarbage.decryptPacketLen, hthree, hd, slice]
        rw [if_neg hshort]
        simp only [hv, if_neg h80]
  · refine ⟨.forged, .forged ⟨l, ha, by omega, by omega, hno⟩, ?_⟩
    show docVersion P prof h bs = .err .decryption
    rw [docVersion, if_neg (by omega)]
    simp only [HsReceivedGarbage.decryptPacketLen, hthree, hd, slice]
    rw [if_neg hshort]
    simp only [hv]

/-! ## The garbage -/

/-- C63: the example of `receive_garbage`, on data in any pieces.  It waits as long as there is no terminator among fewer
than 4111 bytes.  It fails when 4111 bytes or more have arrived without one.  It stops at the first piece with which there
is a terminator, the rest of which it leaves for the packets. -/
theorem C63_garbage {keys : Bytes × Bytes × Bytes} (pieces : List Bytes) : ∀ {h : HsSentVersion} {buf : Bytes},
    h.Knows P keys → (∀ j, ¬ Spec.OccursAt keys.2.2 buf j) → buf.length < 4111 →
    match docGarbage h buf pieces with
    | .waiting => (∀ j, ¬ Spec.OccursAt keys.2.2 (buf ++ pieces.flatten) j) ∧ (buf ++ pieces.flatten).length < 4111
    | .failed e => e = .noGarbageTerminator ∧ (∀ j ≤ 4095, ¬ Spec.OccursAt keys.2.2 (buf ++ pieces.flatten) j) ∧
        4111 ≤ (buf ++ pieces.flatten).length
    | .panicked => False
    | .found h' remaining unread => ∃ g early last, pieces = early ++ last :: unread ∧
        buf ++ early.flatten ++ last = g ++ keys.2.2 ++ remaining ∧ g.length ≤ 4095 ∧
        (∀ j < g.length, ¬ Spec.OccursAt keys.2.2 (g ++ keys.2.2) j) ∧
        (∀ j, ¬ Spec.OccursAt keys.2.2 (buf ++ early.flatten) j) ∧
        h'.remoteGarbage.getD [] = g ∧ h'.cipher = h.cipher := by
  induction pieces with
  | nil =>
    intro h buf hk hno hlen
    show (∀ j, ¬ Spec.OccursAt keys.2.2 (buf ++ []) j) ∧ (buf ++ []).length < 4111
    rw [List.append_nil]
    exact ⟨hno, hlen⟩
  | cons p ps ih =>
    intro h buf hk hno hlen
    have hl : h.remoteTerminator.length = 16 := by rw [hk.terminator]; exact hk.sixteen
    rw [docGarbage]
    cases hg : h.receiveGarbage (buf ++ p) with
    | panic => exact absurd hg (C21_no_panic h _)
    | err e =>
      obtain ⟨rfl, a, b⟩ := (C21_no_terminator h hl _ e).1 hg
      rw [hk.terminator] at b
      simp only
      refine ⟨trivial, fun j hj ho => b j hj ?_, ?_⟩
      · rw [List.flatten_cons, ← List.append_assoc] at ho
        exact occursAt_of_append ho (by rw [hk.sixteen]; omega)
      · rw [List.flatten_cons, ← List.append_assoc, List.length_append]
        omega
    | ok x =>
      cases x with
      | needMoreData h' =>
        obtain ⟨rfl, a, b⟩ := (C21_need_more h hl _ h').1 hg
        rw [hk.terminator] at b
        have := ih (h := h') (buf := buf ++ p) hk b a
        simp only
        revert this
        cases docGarbage h' (buf ++ p) ps with
        | waiting => intro this; simpa [List.append_assoc] using this
        | failed e => intro this; simpa [List.append_assoc] using this
        | panicked => exact id
        | found h2 remaining unread =>
          rintro ⟨g, early, last, h1, h2, h3⟩
          refine ⟨g, p :: early, last, by rw [h1]; rfl, ?_, ?_⟩
          · rw [List.flatten_cons, ← List.append_assoc]
            exact h2
          · rw [List.flatten_cons, ← List.append_assoc]
            exact h3
      | foundGarbage h' m =>
        obtain ⟨i, hi, hocc, hmin, rfl, hgar, -, hc, -⟩ := (C21_found h hl _ h' m).1 hg
        rw [hk.terminator] at hocc hmin
        obtain ⟨g, rest, he, rfl⟩ := hocc
        simp only
        have hlen : (buf ++ p).length = g.length + 16 + rest.length := by
          rw [he, List.length_append, List.length_append, hk.sixteen]
        rw [if_neg (by omega)]
        rw [he] at hmin
        refine ⟨g, [], p, rfl, ?_, hi, fun j hj ho => hmin j hj (occursAt_append ho), by simpa using hno, ?_, hc⟩
        · rw [List.flatten_nil, List.append_nil, he,
            show g.length + 16 = (g ++ keys.2.2).length by rw [List.length_append, hk.sixteen], List.drop_left]
        · rw [hgar, he, List.append_assoc, List.take_left]

/-! ## Both -/

/-- C63: the two examples one after the other, on any data in any pieces. -/
theorem C63_driver (hP : Lawful P) {keys : Bytes × Bytes × Bytes} {h : HsSentVersion} (hk : h.Knows P keys)
    {pieces : List Bytes} (hn : pieces.flatten.length < 2 ^ 36) :
    match docDriver P prof h pieces with
    | none => (∀ j, ¬ Spec.OccursAt keys.2.2 pieces.flatten j) ∧ pieces.flatten.length < 4111
    | some r =>
      ((∀ j ≤ 4095, ¬ Spec.OccursAt keys.2.2 pieces.flatten j) ∧ 4111 ≤ pieces.flatten.length ∧
        r = .err .noGarbageTerminator) ∨
      ∃ g early last unread rest v, pieces = early ++ last :: unread ∧
        early.flatten ++ last = g ++ keys.2.2 ++ rest ∧ g.length ≤ 4095 ∧
        (∀ j < g.length, ¬ Spec.OccursAt keys.2.2 (g ++ keys.2.2) j) ∧
        (∀ j, ¬ Spec.OccursAt keys.2.2 early.flatten j) ∧
        Spec.JudgePackets docRules P keys.1 keys.2.1 0 g rest v ∧
        DriverFollows P keys h.cipher.outbound unread v r := by
  have hno : ∀ j, ¬ Spec.OccursAt keys.2.2 [] j := by
    intro j ho
    have := OccursAt.le ho
    rw [hk.sixteen, List.length_nil] at this
    omega
  have hg := C63_garbage (P := P) pieces hk hno (by decide)
  unfold docDriver
  revert hg
  cases docGarbage h [] pieces with
  | waiting => exact id
  | failed e =>
    rintro ⟨rfl, a, b⟩
    exact .inl ⟨a, b, rfl⟩
  | panicked => exact False.elim
  | found h' remaining unread =>
    rintro ⟨g, early, last, h1, h2, h3, h4, h5, h6, h7⟩
    rw [List.nil_append] at h2 h5
    have hrem : remaining.length < 2 ^ 36 := by
      have e1 := congrArg List.length h2
      rw [h1] at hn
      simp only [List.length_append, List.flatten_append, List.flatten_cons] at e1 hn
      omega
    obtain ⟨v, hj, hf⟩ := C63_version (prof := prof) hP (kL := keys.1) (kP := keys.2.1) _ (n := 0) (h := h')
      (bs := remaining) rfl (by rw [h7]; exact hk.inbound) (by omega)
    rw [h6] at hj
    simp only
    revert hf
    generalize docVersion P prof h' remaining = r
    intro hf
    cases v with
    | waits => obtain rfl : r = .panic := hf; exact .inr ⟨g, early, last, unread, remaining, .waits, h1, h2, h3, h4, h5, hj, rfl⟩
    | forged =>
      obtain rfl : r = .err .decryption := hf
      exact .inr ⟨g, early, last, unread, remaining, .forged, h1, h2, h3, h4, h5, hj, rfl⟩
    | noTerminator => exact hf.elim
    | tooBig => exact hf.elim
    | complete next left =>
      obtain ⟨c, rfl, hc1, hc2⟩ := hf
      exact .inr ⟨g, early, last, unread, remaining, .complete next left, h1, h2, h3, h4, h5, hj, c, rfl, hc1,
        by rw [hc2, h7]⟩

/-- Of packets that complete the handshake, any part that is not all of them has to wait. -/
theorem judgePackets_prefix {r : Spec.Rules} {kL kP : Bytes} {n : Nat} {aad bs : Bytes} {v : Spec.Verdict}
    (hP : Lawful P) (h : Spec.JudgePackets r P kL kP n aad bs v) : ∀ {left : Bytes} {next : Nat},
    v = .complete next left → ∃ used, bs = used ++ left ∧
      ∀ k < used.length, Spec.JudgePackets r P kL kP n aad (used.take k) .waits := by
  have key : ∀ {n : Nat} {aad : Bytes} {header : UInt8} {contents more : Bytes} {k : Nat},
      contents.length ≤ r.longest → contents.length < 2 ^ 24 → k < contents.length + 20 →
      Spec.JudgePackets r P kL kP n aad ((Spec.rawPacket P kL kP n header aad contents ++ more).take k) .waits := by
    intro n aad header contents more k h1 h2 h3
    have hl := rawPacket_length hP kL kP n header aad contents
    refine .waits ?_
    by_cases hk : k < 3
    · exact .inl (by rw [List.length_take]; omega)
    · refine .inr ⟨contents.length, ⟨h2, ?_⟩, h1, by rw [List.length_take]; omega⟩
      rw [List.take_take, Nat.min_eq_left (by omega), rawPacket_eq, List.append_assoc]
      exact List.take_left' (by rw [spec_xor, xorBytes_length, lengthMask_length, spec_le, leBytes_length]; rfl)
  induction h with
  | waits => intro _ _ e; cases e
  | tooBig => intro _ _ e; cases e
  | forged => intro _ _ e; cases e
  | @decoy n aad header contents rest v h1 h2 h3 hj ih =>
    intro left next e
    obtain ⟨used, rfl, hw⟩ := ih e
    have hl := rawPacket_length hP kL kP n header aad contents
    refine ⟨Spec.rawPacket P kL kP n header aad contents ++ used, (List.append_assoc _ _ _).symm, ?_⟩
    intro k hk
    by_cases hk3 : k < contents.length + 20
    · exact key h2 h3 hk3
    · rw [List.length_append] at hk
      rw [List.take_append, List.take_of_length_le (by omega)]
      exact .decoy h1 h2 h3 (hw _ (by omega))
  | @version n aad header contents rest h1 h2 h3 =>
    intro left next e
    injection e with e1 e2
    subst e2
    refine ⟨_, rfl, fun k hk => ?_⟩
    rw [rawPacket_length hP] at hk
    have := key (n := n) (aad := aad) (header := header) (more := []) h2 h3 hk
    rwa [List.append_nil] at this

/-- What decides is what is in the buffer when the terminator is. -/
theorem docDriver_eq (hP : Lawful P) {keys : Bytes × Bytes × Bytes} {h : HsSentVersion} (hk : h.Knows P keys)
    {early unread : List Bytes} {last g rest : Bytes} {v : Spec.Verdict}
    (hn : (early ++ last :: unread).flatten.length < 2 ^ 36)
    (hb : early.flatten ++ last = g ++ keys.2.2 ++ rest) (hg : g.length ≤ 4095)
    (hfirst : ∀ j < g.length, ¬ Spec.OccursAt keys.2.2 (g ++ keys.2.2) j)
    (hearly : ∀ j, ¬ Spec.OccursAt keys.2.2 early.flatten j)
    (hv : Spec.JudgePackets docRules P keys.1 keys.2.1 0 g rest v) :
    ∃ r, docDriver P prof h (early ++ last :: unread) = some r ∧
      DriverFollows P keys h.cipher.outbound unread v r := by
  have hflat : (early ++ last :: unread).flatten = g ++ keys.2.2 ++ (rest ++ unread.flatten) := by
    rw [List.flatten_append, List.flatten_cons, ← List.append_assoc, hb, List.append_assoc]
  have hocc : Spec.OccursAt keys.2.2 (early ++ last :: unread).flatten g.length := by
    rw [hflat]; exact occurs_garbage _ _ _
  have hd := C63_driver (prof := prof) hP hk hn
  revert hd
  cases docDriver P prof h (early ++ last :: unread) with
  | none => exact fun hd => absurd hocc (hd.1 _)
  | some r =>
    rintro (⟨h1, -⟩ | ⟨g', early', last', unread', rest', v', h1, h2, h3, h4, h5, h6, h7⟩)
    · exact absurd hocc (h1 _ hg)
    · have hpieces : early' = early ∧ last' = last ∧ unread' = unread := by
        have hlast : ∀ {e e' : List Bytes} {l l' : Bytes} {u u' : List Bytes} {g rest : Bytes},
            e ++ l :: u = e' ++ l' :: u' → e.flatten ++ l = g ++ keys.2.2 ++ rest →
            (∀ j, ¬ Spec.OccursAt keys.2.2 e'.flatten j) → e'.length ≤ e.length := by
          intro e e' l l' u u' g rest he hb hno
          refine Nat.le_of_not_lt fun hlt => ?_
          have hx : ∃ x, e' = e ++ l :: x := by
            rcases List.append_eq_append_iff.1 he with ⟨a, h1, h2⟩ | ⟨a, h1, -⟩
            · cases a with
              | nil => rw [h1, List.append_nil] at hlt; exact absurd hlt (Nat.lt_irrefl _)
              | cons y x => exact ⟨x, by rw [h1, (List.cons.inj h2).1]⟩
            · rw [h1, List.length_append] at hlt
              omega
          obtain ⟨x, rfl⟩ := hx
          refine hno g.length ?_
          rw [List.flatten_append, List.flatten_cons, ← List.append_assoc, hb, List.append_assoc]
          exact occurs_garbage _ _ _
        have e1 := hlast h1 hb h5
        have e2 := hlast h1.symm h2 hearly
        have e3 := List.append_inj h1 (by omega)
        have e4 := List.cons.inj e3.2
        exact ⟨e3.1.symm, e4.1.symm, e4.2.symm⟩
      obtain ⟨rfl, rfl, rfl⟩ := hpieces
      obtain ⟨rfl, rfl⟩ := garbage_unique (hb.symm.trans h2) hfirst h4
      obtain rfl := judgePackets_unique hP hv h6
      exact ⟨r, rfl, h7⟩

/-- C63: an acceptable peer.  If the packets of its handshake have arrived with the piece that completes the terminator,
the examples complete the handshake, with the bytes that follow, however the data is cut. -/
theorem C63_complete (hP : Lawful P) {keys : Bytes × Bytes × Bytes} {h : HsSentVersion} (hk : h.Knows P keys)
    {early unread : List Bytes} {last g left : Bytes} {decoys : List Bytes} {version : UInt8 × Bytes}
    (hn : (early ++ last :: unread).flatten.length < 2 ^ 36)
    (hb : early.flatten ++ last = g ++ keys.2.2 ++
      (Spec.packetStream P keys.1 keys.2.1 0 g (decoys.map (fun d => (0x80, d)) ++ [version]) ++ left))
    (hg : g.length ≤ 4095) (hfirst : ∀ j < g.length, ¬ Spec.OccursAt keys.2.2 (g ++ keys.2.2) j)
    (hearly : ∀ j, ¬ Spec.OccursAt keys.2.2 early.flatten j)
    (hd : ∀ d ∈ decoys, d.length < 2 ^ 24) (hh : version.1 ≠ 0x80) (hv : version.2.length < 2 ^ 24) :
    ∃ c, docDriver P prof h (early ++ last :: unread) = some (.ok (c, left, unread)) ∧
      c.inbound.At P keys.1 keys.2.1 (decoys.length + 1) ∧ c.outbound = h.cipher.outbound := by
  have hlong : docRules.longest = 2 ^ 24 - 1 := rfl
  have hj : Spec.JudgePackets docRules P keys.1 keys.2.1 0 g
      (Spec.packetStream P keys.1 keys.2.1 0 g (decoys.map (fun d => (0x80, d)) ++ [version]) ++ left)
      (.complete (decoys.length + 1) left) := by
    rw [stream_append, List.append_assoc]
    refine judge_decoys _ ?_ ?_
    · intro d hd'
      obtain ⟨x, hx, rfl⟩ := List.mem_map.1 hd'
      have := hd x hx
      exact ⟨rfl, by show x.length ≤ _; omega, this⟩
    · simp only [Spec.packetStream, List.append_nil, Nat.zero_add, List.length_map]
      exact .version (by simpa [docRules] using hh) (by omega) hv
  obtain ⟨r, hr, c, rfl, h1, h2⟩ := docDriver_eq (prof := prof) hP hk hn hb hg hfirst hearly hj
  exact ⟨c, hr, h1, h2⟩

/-- C63: the same peer, the same bytes.  If the piece that completes the terminator ends before the version packet does,
the examples panic. -/
theorem C63_panic (hP : Lawful P) {keys : Bytes × Bytes × Bytes} {h : HsSentVersion} (hk : h.Knows P keys)
    {early unread : List Bytes} {last g used left : Bytes} {next k : Nat}
    (hn : (early ++ last :: unread).flatten.length < 2 ^ 36)
    (hpeer : Spec.JudgePackets docRules P keys.1 keys.2.1 0 g (used ++ left) (.complete next left))
    (hcut : k < used.length) (hb : early.flatten ++ last = g ++ keys.2.2 ++ used.take k)
    (hg : g.length ≤ 4095) (hfirst : ∀ j < g.length, ¬ Spec.OccursAt keys.2.2 (g ++ keys.2.2) j)
    (hearly : ∀ j, ¬ Spec.OccursAt keys.2.2 early.flatten j) :
    docDriver P prof h (early ++ last :: unread) = some .panic := by
  obtain ⟨used', he, hw⟩ := judgePackets_prefix hP hpeer rfl
  obtain rfl := List.append_cancel_right he
  obtain ⟨r, hr, h1⟩ := docDriver_eq (prof := prof) hP hk hn hb hg hfirst hearly (hw k hcut)
  rw [hr, show r = .panic from h1]

/-- C63: nobody has to know a key to make the examples panic once the terminator has arrived: the piece with the
terminator has to end with it, or with one or two more bytes. -/
theorem C63_panic_cut (hP : Lawful P) {keys : Bytes × Bytes × Bytes} {h : HsSentVersion} (hk : h.Knows P keys)
    {early unread : List Bytes} {last g rest : Bytes} (hn : (early ++ last :: unread).flatten.length < 2 ^ 36)
    (hb : early.flatten ++ last = g ++ keys.2.2 ++ rest) (hrest : rest.length < 3)
    (hg : g.length ≤ 4095) (hfirst : ∀ j < g.length, ¬ Spec.OccursAt keys.2.2 (g ++ keys.2.2) j)
    (hearly : ∀ j, ¬ Spec.OccursAt keys.2.2 early.flatten j) :
    docDriver P prof h (early ++ last :: unread) = some .panic := by
  obtain ⟨r, hr, h1⟩ := docDriver_eq (prof := prof) hP hk hn hb hg hfirst hearly (.waits (.inl hrest))
  rw [hr, show r = .panic from h1]

/-! ## Examples -/

/-- The state of a party that has sent its version, and the keys of the direction towards it. -/
def docSample : HsSentVersion × (Bytes × Bytes × Bytes) :=
  (⟨[1, 2, 3, 4], .initiator,
    ⟨zeros 32, ⟨FSStream.new (leBytes 32 77), FSAead.new (leBytes 32 99)⟩, ⟨FSStream.new (zeros 32), FSAead.new (zeros 32)⟩⟩,
    leBytes 16 12345678⟩, (leBytes 32 77, leBytes 32 99, leBytes 16 12345678))

example : docSample.1.Knows toy docSample.2 := ⟨rfl, rfl, FSStream.at_new _, FSAead.at_new _⟩

/-- The garbage, the terminator, a decoy and the version of a peer, and a byte of its first message. -/
def docBytes : Bytes :=
  [9, 8] ++ docSample.2.2.2 ++
    (Spec.packetStream toy (leBytes 32 77) (leBytes 32 99) 0 [9, 8] ([[1, 2, 3]].map (fun d => (0x80, d)) ++ [(0, [])]) ++ [5])

/-- The same bytes in three cuts: completed; panic; waiting. -/
example :
    ((docDriver toy .debug docSample.1 [docBytes.take 1, docBytes.drop 1]).any fun r => match r with
      | .ok (c, left, unread) => c.inbound.packetCipher.messageCounter == 2 && left == [5] && unread == []
      | _ => false) = true ∧
    ((docDriver toy .debug docSample.1 [docBytes.take 30, docBytes.drop 30]).any fun r => match r with
      | .panic => true
      | _ => false) = true ∧
    (docDriver toy .debug docSample.1 [docBytes.take 17]).isNone = true := by
  decide +kernel

/-- The hypotheses of `C63_complete` and `C63_panic` are met by it. -/
example : (∀ j < 2, ¬ Spec.OccursAt docSample.2.2.2 ([9, 8] ++ docSample.2.2.2) j) ∧
    (∀ j, ¬ Spec.OccursAt docSample.2.2.2 [[9]].flatten j) := by
  refine ⟨?_, ?_⟩
  · rintro j hj ⟨pre, post, he, rfl⟩
    have h0 : (([9, 8] ++ docSample.2.2.2).drop pre.length).take 16
        = ((pre ++ docSample.2.2.2 ++ post).drop pre.length).take 16 := by rw [he]
    rw [List.append_assoc, List.drop_left, List.take_left' (show docSample.2.2.2.length = 16 from rfl)] at h0
    revert h0
    have : pre.length = 0 ∨ pre.length = 1 := by omega
    rcases this with h | h <;> rw [h] <;> decide +kernel
  · rintro j ⟨pre, post, he, -⟩
    have := congrArg List.length he
    simp only [List.length_append] at this
    have h16 : docSample.2.2.2.length = 16 := rfl
    rw [h16] at this
    simp at this
    omega

end Bip324
