import Verif.Props.Middle
import Verif.Props.Forgery
import Verif.Lemmas.Judge

/-!
# C87 without the assumption: how many one-time keys let a changed handshake pass
-/

namespace Bip324

open Concrete

variable {prof : Profile}

attribute [local irreducible] chacha20 poly1305 chachaBlock keystream

namespace Spec

/-- The one-time keys of the first `K` packets in the direction with the packet key `kP` are those drawn, all others are as they may be. -/
def drawnDir (C : Curve) (kP : Bytes) {K : Nat} (ks : Fin K → OtKey) (base : Bytes → Bytes → Bytes) (key nonce : Bytes) : Bytes :=
  if h : numberOf nonce < K ∧ key = packetKey (rfc C) kP (numberOf nonce / 224) then (ks ⟨numberOf nonce, h.1⟩).bytes
  else base key nonce

/-- The library's cryptography with these one-time keys. -/
def lotteryDir (C : Curve) (base : Bytes → Bytes → Bytes) (kP : Bytes) {K : Nat} (ks : Fin K → OtKey) : Prims :=
  withOneTimeKeys C (drawnDir C kP ks base)

end Spec

theorem lotteryDir_otk {C : Curve} {base : Bytes → Bytes → Bytes} {kP : Bytes} {K : Nat} (ks : Fin K → OtKey) {i : Nat} (hK : i < K)
    (h64 : i < 2 ^ 64) : Spec.drawnDir C kP ks base (Spec.packetKey (rfc C) kP (i / 224)) (Spec.packetNonce i) = (ks ⟨i, hK⟩).bytes := by
  unfold Spec.drawnDir
  simp only [numberOf_packetNonce h64]
  rw [dif_pos ⟨hK, trivial⟩]

/-- What is authenticated determines the associated data and the ciphertext. -/
theorem macData_inj_aad {aad aad' ct ct' : Bytes} (h0 : aad.length < 2 ^ 64) (h0' : aad'.length < 2 ^ 64) (h1 : ct.length < 2 ^ 64)
    (h2 : ct'.length < 2 ^ 64) (h : Spec.macData aad ct = Spec.macData aad' ct') : aad = aad' ∧ ct = ct' := by
  unfold Spec.macData at h
  obtain ⟨ha, hb⟩ := List.append_inj' h (by rw [leBytes_length, leBytes_length])
  have hl : ct.length = ct'.length := leBytes_inj (n := 8) h1 h2 hb
  obtain ⟨hc, hd⟩ := List.append_inj' ha (by rw [leBytes_length, leBytes_length])
  have hl' : aad.length = aad'.length := leBytes_inj (n := 8) h0 h0' hd
  obtain ⟨he, -⟩ := List.append_inj' hc (by simp [pad16, zeros, hl])
  obtain ⟨hf, hg⟩ := List.append_inj' he hl
  exact ⟨(List.append_inj' hf (by simp [pad16, zeros, hl'])).1, hg⟩

theorem macData_length_aad {aad ct : Bytes} (h0 : aad.length ≤ 4095) (h : ct.length ≤ 2 ^ 24) :
    ((Spec.macData aad ct).length + 15) / 16 ≤ 2 ^ 20 + 257 := by
  unfold Spec.macData pad16
  simp only [List.length_append, zeros_length, leBytes_length]
  omega

/-- Two senders with the same cipher keys write the same bytes exactly if all tags are the same. -/
theorem stream_eq_iff_aad {P P' : Prims} (h : SameCipher P P') (ht : ∀ k n a c, (P.sealC k n a c).2.length = 16)
    (ht' : ∀ k n a c, (P'.sealC k n a c).2.length = 16) (kL kP : Bytes) (ms : List (UInt8 × Bytes)) (n : Nat) (aad : Bytes) :
    Spec.packetStream P' kL kP n aad ms = Spec.packetStream P kL kP n aad ms ↔
      ∀ j m, ms[j]? = some m →
        (P'.sealC (Spec.packetKey P kP ((n + j) / 224)) (Spec.packetNonce (n + j)) (if j = 0 then aad else []) (m.1 :: m.2)).2 =
        (P.sealC (Spec.packetKey P kP ((n + j) / 224)) (Spec.packetNonce (n + j)) (if j = 0 then aad else []) (m.1 :: m.2)).2 := by
  cases ms with
  | nil => simp [Spec.packetStream]
  | cons m ms =>
    have ih := stream_eq_iff h ht ht' kL kP ms (n + 1)
    simp only [Spec.packetStream, Spec.rawPacket, h.packetKey, h.lengthMask, h.seal1, List.append_assoc, List.append_cancel_left_eq]
    constructor
    · intro he j m' hm'
      obtain ⟨h1, h2⟩ := List.append_inj he (by rw [ht, ht'])
      cases j with
      | zero =>
        simp only [List.getElem?_cons_zero, Option.some.injEq] at hm'
        subst hm'
        simpa using h1
      | succ j =>
        rw [List.getElem?_cons_succ] at hm'
        have := ih.1 h2 j m' hm'
        rw [show n + 1 + j = n + (j + 1) by omega] at this
        simpa using this
    · intro he
      have h1 := he 0 m rfl
      have h2 := ih.2 (fun j m' hm' => by
        have := he (j + 1) m' (by rw [List.getElem?_cons_succ]; exact hm')
        rw [show n + (j + 1) = n + 1 + j by omega] at this
        simpa using this)
      rw [h2]
      exact congrArg (· ++ _) (by simpa using h1)

theorem chacha20_cancel {k n a b : Bytes} {c : Nat} (h : chacha20 k n c a = chacha20 k n c b) : a = b := by
  rw [← chacha20_involutive k n c a, h, chacha20_involutive]

/-- Whatever the one-time keys are, a stream reads in one way only. -/
theorem stream_reads {C : Curve} (hC : C.Lawful) (o o' : Bytes → Bytes → Bytes) (kL kP : Bytes) (ms : List (UInt8 × Bytes)) :
    ∀ (ms' : List (UInt8 × Bytes)) (n : Nat) (aad rest rest' : Bytes), (∀ m ∈ ms, m.2.length < 2 ^ 24) → (∀ m ∈ ms', m.2.length < 2 ^ 24) →
    Spec.packetStream (Spec.withOneTimeKeys C o) kL kP n aad ms ++ rest = Spec.packetStream (Spec.withOneTimeKeys C o') kL kP n aad ms' ++ rest' →
    ms <+: ms' ∨ ms' <+: ms := by
  have hs : SameCipher (Spec.withOneTimeKeys C o) (Spec.withOneTimeKeys C o') := ⟨rfl, fun _ _ _ _ => rfl⟩
  have hP := withOneTimeKeys_lawful hC o
  have hP' := withOneTimeKeys_lawful hC o'
  induction ms with
  | nil => intros; exact .inl List.nil_prefix
  | cons m ms ih =>
    intro ms' n aad rest rest' h1 h2 he
    cases ms' with
    | nil => exact .inr List.nil_prefix
    | cons m' ms' =>
      rw [packetStream_append, packetStream_append, List.append_assoc, List.append_assoc] at he
      have h3 := congrArg (List.take 3) he
      rw [Ref.raw_take, Ref.raw_take, hs.lengthMask] at h3
      have hl := lengthBytes_inj (h1 m List.mem_cons_self) (h2 m' List.mem_cons_self) h3
      obtain ⟨e1, e2⟩ := List.append_inj he (by rw [rawPacket_length hP, rawPacket_length hP', hl])
      have hm : m = m' := by
        simp only [Spec.rawPacket, hs.lengthMask, hs.packetKey, hl] at e1
        obtain ⟨e3, -⟩ := List.append_inj' e1 (by rw [hP.tag_length, hP'.tag_length])
        have e4 := List.append_cancel_left e3
        simp only [Spec.withOneTimeKeys] at e4
        have e5 := chacha20_cancel e4
        simp only [List.cons.injEq] at e5
        exact Prod.ext e5.1 e5.2
      subst hm
      rcases ih ms' (n + 1) [] rest rest' (fun m hm => h1 m (List.mem_cons_of_mem _ hm)) (fun m hm => h2 m (List.mem_cons_of_mem _ hm)) e2
        with h | h
      · exact .inl (List.cons_prefix_cons.2 ⟨rfl, h⟩)
      · exact .inr (List.cons_prefix_cons.2 ⟨rfl, h⟩)

theorem stream_length_eq {P P' : Prims} (hP : Lawful P) (hP' : Lawful P') (kL kP : Bytes) (ms : List (UInt8 × Bytes)) : ∀ (n : Nat) (aad : Bytes),
    (Spec.packetStream P kL kP n aad ms).length = (Spec.packetStream P' kL kP n aad ms).length := by
  induction ms with
  | nil => intros; rfl
  | cons m ms ih =>
    intro n aad
    rw [packetStream_append, packetStream_append, List.length_append, List.length_append, rawPacket_length hP, rawPacket_length hP', ih]

/-- The counting behind C87, for any way of accepting a handshake: if whatever is accepted is a handshake under the drawn keys other than
the one that was sent, then few one-time keys accept. -/
theorem middle_bound {C : Curve} (hC : C.Lawful) (base : Bytes → Bytes → Bytes) (kL kP term : Bytes) {K : Nat} (hK : K < 2 ^ 64)
    (gB : Bytes) (hgB : gB.length ≤ 4095) (dB : List Bytes) (later : List (UInt8 × Bytes))
    (hlen : ∀ m ∈ Spec.handshakeMessages dB (0, []) ++ later, m.2.length < 2 ^ 24)
    (hs : (Spec.handshakeMessages dB (0, []) ++ later).length ≤ K) (wire bs : Bytes) (hbs : bs.length / 20 ≤ K)
    (accepts : (Fin K → OtKey) → Prop)
    (hacc : ∀ ks, accepts ks → ∃ g d v rest, (∀ j < g.length, ¬ Spec.OccursAt term (g ++ term) j) ∧ g.length ≤ 4095 ∧
      v.1 ≠ 0x80 ∧ (∀ m ∈ Spec.handshakeMessages d v, m.2.length < 2 ^ 24) ∧
      bs = g ++ term ++ Spec.packetStream (Spec.lotteryDir C base kP ks) kL kP 0 g (Spec.handshakeMessages d v) ++ rest ∧
      ¬ (g = gB ∧ d = dB ∧ v = (0, [])))
    [DecidablePred fun ks : Fin K → OtKey => Spec.packetStream (Spec.lotteryDir C base kP ks) kL kP 0 gB
      (Spec.handshakeMessages dB (0, []) ++ later) = wire ∧ accepts ks] :
    (Finset.univ.filter (fun ks : Fin K → OtKey => Spec.packetStream (Spec.lotteryDir C base kP ks) kL kP 0 gB
        (Spec.handshakeMessages dB (0, []) ++ later) = wire ∧ accepts ks)).card * 2 ^ 106
      ≤ (2 ^ 23 + 2056) * (Finset.univ.filter (fun ks : Fin K → OtKey => Spec.packetStream (Spec.lotteryDir C base kP ks) kL kP 0 gB
        (Spec.handshakeMessages dB (0, []) ++ later) = wire)).card := by
  classical
  obtain ⟨sent, hsent⟩ : ∃ sent, sent = Spec.handshakeMessages dB (0, []) ++ later := ⟨_, rfl⟩
  rw [← hsent] at hlen hs
  simp only [← hsent]
  obtain ⟨W, hW⟩ : ∃ W, W = Finset.univ.filter (fun ks : Fin K → OtKey =>
        Spec.packetStream (Spec.lotteryDir C base kP ks) kL kP 0 gB sent = wire) := ⟨_, rfl⟩
  have hmemW : ∀ ks, ks ∈ W ↔ Spec.packetStream (Spec.lotteryDir C base kP ks) kL kP 0 gB sent = wire := by
    intro ks
    simp only [hW, Finset.mem_filter, Finset.mem_univ, true_and]
  rw [← hW]
  obtain ⟨B, hB⟩ : ∃ B, B = Finset.univ.filter (fun ks : Fin K → OtKey =>
        Spec.packetStream (Spec.lotteryDir C base kP ks) kL kP 0 gB sent = wire ∧ accepts ks) := ⟨_, rfl⟩
  have hmemB : ∀ ks, ks ∈ B ↔ ks ∈ W ∧ accepts ks := by
    intro ks
    rw [hmemW]
    simp only [hB, Finset.mem_filter, Finset.mem_univ, true_and]
  suffices h : B.card * 2 ^ 106 ≤ (2 ^ 23 + 2056) * W.card by
    refine le_trans (Nat.mul_le_mul_right _ (Nat.le_of_eq ?_)) h
    refine congrArg Finset.card (Finset.ext fun ks => ?_)
    rw [hmemB, hmemW]
    simp only [Finset.mem_filter, Finset.mem_univ, true_and]
  rcases Finset.eq_empty_or_nonempty B with he | ⟨ks1, hks1⟩
  · rw [he]; simp
  obtain ⟨hw1, ha1⟩ := (hmemB ks1).1 hks1
  obtain ⟨g, d, v, rest, hearly, hg, hv, hmlen, hb1, hne⟩ := hacc ks1 ha1
  have hsame : ∀ ks : Fin K → OtKey, SameCipher (rfc C) (Spec.lotteryDir C base kP ks) := fun ks => same_withOneTimeKeys C _
  have hsame2 : ∀ ks : Fin K → OtKey, SameCipher (Spec.lotteryDir C base kP ks1) (Spec.lotteryDir C base kP ks) :=
    fun ks => ⟨rfl, fun _ _ _ _ => rfl⟩
  have hlaw : ∀ ks : Fin K → OtKey, Lawful (Spec.lotteryDir C base kP ks) := fun ks => withOneTimeKeys_lawful hC _
  have hkeys : ∀ (ks : Fin K → OtKey) e, Spec.packetKey (Spec.lotteryDir C base kP ks) kP e = Spec.packetKey (rfc C) kP e :=
    fun ks e => (hsame ks).packetKey kP e
  -- all of them read the same handshake
  have hall : ∀ ks, accepts ks → Spec.packetStream (Spec.lotteryDir C base kP ks) kL kP 0 g (Spec.handshakeMessages d v) =
      Spec.packetStream (Spec.lotteryDir C base kP ks1) kL kP 0 g (Spec.handshakeMessages d v) := by
    intro ks hks
    obtain ⟨g', d', v', rest', hearly', -, hv', hmlen', hb', -⟩ := hacc ks hks
    have h0 := hb1.symm.trans hb'
    rw [List.append_assoc, List.append_assoc (g' ++ term)] at h0
    obtain ⟨rfl, h1⟩ := garbage_unique h0 hearly hearly'
    have : d = d' ∧ v = v' := by
      rcases stream_reads hC _ _ kL kP _ _ 0 g rest rest' hmlen hmlen' h1 with h | h
      · exact handshakeMessages_unique (later := []) hv hv' (by rw [List.append_nil]; exact h)
      · obtain ⟨h2, h3⟩ := handshakeMessages_unique (later := []) hv' hv (by rw [List.append_nil]; exact h)
        exact ⟨h2.symm, h3.symm⟩
    obtain ⟨rfl, rfl⟩ := this
    refine (List.append_inj h1 ?_).1.symm
    exact stream_length_eq (hlaw ks1) (hlaw ks) kL kP _ 0 g
  -- and it differs from the one sent in some packet
  have hdiff : ∃ i m, (Spec.handshakeMessages d v)[i]? = some m ∧ ∀ m', sent[i]? = some m' →
      ((if i = 0 then gB else []), m') ≠ ((if i = 0 then g else []), m) := by
    by_contra hno
    apply hne
    have hno : ∀ i m, (Spec.handshakeMessages d v)[i]? = some m → ∃ m', sent[i]? = some m' ∧
        ((if i = 0 then gB else []), m') = ((if i = 0 then g else []), m) := by
      intro i m hm
      by_contra hno'
      exact hno ⟨i, m, hm, fun m' hm' he => hno' ⟨m', hm', he⟩⟩
    have hpre : Spec.handshakeMessages d v <+: sent := by
      rw [List.prefix_iff_getElem?]
      intro i hi
      obtain ⟨m', h1, h2⟩ := hno i _ (List.getElem?_eq_getElem hi)
      rw [h1, (Prod.mk.inj h2).2]
    rw [hsent] at hpre
    obtain ⟨h1, h2⟩ := handshakeMessages_unique hv (by decide) hpre
    refine ⟨?_, h1, h2⟩
    have hpos : 0 < (Spec.handshakeMessages d v).length := by simp [Spec.handshakeMessages]
    obtain ⟨m', -, h4⟩ := hno 0 _ (List.getElem?_eq_getElem hpos)
    exact (Prod.mk.inj h4).1.symm
  obtain ⟨i, m, him, hdiff⟩ := hdiff
  have hiK : i < K := by
    have h1 := (List.getElem?_eq_some_iff.1 him).1
    have h2 := packetStream_length (hlaw ks1) kL kP 0 g (Spec.handshakeMessages d v)
    have h3 := congrArg List.length hb1
    simp only [List.length_append] at h3
    omega
  let key : Nat → Bytes := fun i => Spec.packetKey (rfc C) kP (i / 224)
  let body : Nat → UInt8 × Bytes → Bytes := fun i m => chacha20 (key i) (Spec.packetNonce i) 1 (m.1 :: m.2)
  let aadB : Nat → Bytes := fun i => if i = 0 then gB else []
  let aad : Nat → Bytes := fun i => if i = 0 then g else []
  have hotk : ∀ (ks : Fin K → OtKey) (j : Fin K), Spec.drawnDir C kP ks base (key j.val) (Spec.packetNonce j.val) = (ks j).bytes :=
    fun ks j => lotteryDir_otk ks j.isLt (by have := j.isLt; omega)
  have hseal : ∀ (ks : Fin K → OtKey) (j : Fin K) (a : Bytes) (m : UInt8 × Bytes),
      ((Spec.lotteryDir C base kP ks).sealC (key j.val) (Spec.packetNonce j.val) a (m.1 :: m.2)).2 =
        poly1305 (ks j).bytes (Spec.macData a (body j.val m)) := by
    intro ks j a m
    simp only [Spec.lotteryDir, Spec.withOneTimeKeys, hotk, body]
  obtain ⟨A, hA⟩ : ∃ A : Fin K → Finset OtKey, ∀ j k, k ∈ A j ↔ ∀ m, sent[j.val]? = some m →
      poly1305 (OtKey.bytes k) (Spec.macData (aadB j.val) (body j.val m)) =
        poly1305 (ks1 j).bytes (Spec.macData (aadB j.val) (body j.val m)) :=
    ⟨fun j => Finset.univ.filter (fun k : OtKey => ∀ m, sent[j.val]? = some m →
      poly1305 (OtKey.bytes k) (Spec.macData (aadB j.val) (body j.val m)) =
        poly1305 (ks1 j).bytes (Spec.macData (aadB j.val) (body j.val m))),
      fun j k => by simp only [Finset.mem_filter, Finset.mem_univ, true_and]⟩
  have hlt : ∀ j m, sent[j]? = some m → j < K := by
    intro j m hm
    have := (List.getElem?_eq_some_iff.1 hm).1
    omega
  have htl : ∀ (ks : Fin K → OtKey) k n a c, ((Spec.lotteryDir C base kP ks).sealC k n a c).2.length = 16 :=
    fun ks => (hlaw ks).tag_length
  have hWA : W = Fintype.piFinset A := by
    ext ks
    rw [hmemW, ← (hmemW ks1).1 hw1, stream_eq_iff_aad (hsame2 ks) (htl ks1) (htl ks), Fintype.mem_piFinset]
    simp only [hkeys, Nat.zero_add]
    constructor
    · intro h j
      rw [hA]
      intro m hm
      rw [← hseal ks j, ← hseal ks1 j]
      exact h j.val m hm
    · intro h j m hm
      have hj := hlt j m hm
      have := (hA _ _).1 (h ⟨j, hj⟩) m hm
      rw [← hseal ks ⟨j, hj⟩, ← hseal ks1 ⟨j, hj⟩] at this
      exact this
  -- the keys which give the changed packet its tag
  obtain ⟨F, hF⟩ : ∃ F : Finset OtKey, ∀ k, k ∈ F ↔ poly1305 (OtKey.bytes k) (Spec.macData (aad i) (body i m)) =
      poly1305 (ks1 ⟨i, hiK⟩).bytes (Spec.macData (aad i) (body i m)) :=
    ⟨Finset.univ.filter (fun k : OtKey => poly1305 (OtKey.bytes k) (Spec.macData (aad i) (body i m)) =
      poly1305 (ks1 ⟨i, hiK⟩).bytes (Spec.macData (aad i) (body i m))), fun k => by simp only [Finset.mem_filter, Finset.mem_univ, true_and]⟩
  have hBF : B ⊆ W.filter (fun ks => ks ⟨i, hiK⟩ ∈ F) := by
    intro ks hks
    obtain ⟨hw, ha⟩ := (hmemB ks).1 hks
    refine Finset.mem_filter.2 ⟨hw, (hF _).2 ?_⟩
    have h := (stream_eq_iff_aad (hsame2 ks) (htl ks1) (htl ks) kL kP _ 0 g).1 (hall ks ha) i m him
    simp only [hkeys, Nat.zero_add] at h
    rw [← hseal ks ⟨i, hiK⟩, ← hseal ks1 ⟨i, hiK⟩]
    exact h
  refine le_trans (Nat.mul_le_mul_right _ (Finset.card_le_card hBF)) ?_
  rw [hWA]
  refine one_draw A ⟨i, hiK⟩ F _ _ ?_
  have hml := hmlen m (List.mem_of_getElem? him)
  have hbl : ∀ m : UInt8 × Bytes, m.2.length < 2 ^ 24 → (body i m).length ≤ 2 ^ 24 := by
    intro m hm
    simp only [body, chacha20_length, List.length_cons]
    omega
  have haad : (aad i).length ≤ 4095 := by simp only [aad]; split <;> simp [hg]
  have haadB : (aadB i).length ≤ 4095 := by simp only [aadB]; split <;> simp [hgB]
  cases hm : sent[i]? with
  | none =>
    have hAu : A ⟨i, hiK⟩ = Finset.univ := by
      ext k
      rw [hA]
      simp [hm]
    have hFc : F.card ≤ 2 ^ 128 := by
      rw [← tag_count (Spec.macData (aad i) (body i m)) _ (poly1305_length (ks1 ⟨i, hiK⟩).bytes (Spec.macData (aad i) (body i m)))]
      refine Finset.card_le_card (fun k hk => ?_)
      simp only [Finset.mem_filter, Finset.mem_univ, true_and]
      exact (hF k).1 hk
    rw [hAu, Finset.univ_inter, Finset.card_univ, Fintype.card_prod, Fintype.card_fin]
    calc F.card * 2 ^ 106 ≤ 2 ^ 128 * 2 ^ 106 := Nat.mul_le_mul_right _ hFc
      _ ≤ (2 ^ 23 + 2056) * (2 ^ 128 * 2 ^ 128) := by norm_num
  | some m' =>
    have hml' := hlen m' (List.mem_of_getElem? hm)
    have hAc : (A ⟨i, hiK⟩).card = 2 ^ 128 := by
      rw [← tag_count (Spec.macData (aadB i) (body i m')) _ (poly1305_length (ks1 ⟨i, hiK⟩).bytes (Spec.macData (aadB i) (body i m')))]
      refine congrArg Finset.card (Finset.ext fun k => ?_)
      rw [hA]
      simp only [Finset.mem_filter, Finset.mem_univ, true_and, hm, Option.some.injEq, forall_eq']
    have hAF : (A ⟨i, hiK⟩ ∩ F).card ≤ 8 * (2 ^ 20 + 257) * 2 ^ 22 := by
      refine le_trans (Finset.card_le_card ?_) (forge_count (Spec.macData (aadB i) (body i m')) (Spec.macData (aad i) (body i m))
        (poly1305 (ks1 ⟨i, hiK⟩).bytes (Spec.macData (aadB i) (body i m'))) (poly1305 (ks1 ⟨i, hiK⟩).bytes (Spec.macData (aad i) (body i m)))
        ?_ (2 ^ 20 + 257) (macData_length_aad haadB (hbl m' hml')) (macData_length_aad haad (hbl m hml)))
      · intro k hk
        simp only [Finset.mem_inter] at hk
        simp only [Finset.mem_filter, Finset.mem_univ, true_and]
        exact ⟨(hA _ k).1 hk.1 m' hm, (hF k).1 hk.2⟩
      · intro heq
        have hb1 := hbl m' hml'
        have hb2 := hbl m hml
        obtain ⟨e1, e2⟩ := macData_inj_aad (by omega) (by omega) (by omega) (by omega) (Prod.mk.inj heq).1
        apply hdiff m' hm
        have e3 := congrArg (chacha20 (key i) (Spec.packetNonce i) 1) e2
        simp only [body, chacha20_involutive, List.cons.injEq] at e3
        exact Prod.ext e1 (Prod.ext e3.1 e3.2)
    rw [hAc]
    calc (A ⟨i, hiK⟩ ∩ F).card * 2 ^ 106 ≤ 8 * (2 ^ 20 + 257) * 2 ^ 22 * 2 ^ 106 := Nat.mul_le_mul_right _ hAF
      _ = (2 ^ 23 + 2056) * 2 ^ 128 := by norm_num

/-- The keys of both directions do not depend on the one-time keys. -/
theorem directions_lotteryDir (C : Curve) (base : Bytes → Bytes → Bytes) (kP : Bytes) {K : Nat} (ks : Fin K → OtKey)
    (magic a b sk : Bytes) (init : Bool) :
    Spec.directions (Spec.lotteryDir C base kP ks) magic a b sk init = Spec.directions (rfc C) magic a b sk init := rfl

/-- What both APIs have in common: bytes which are a handshake, but not the one that was sent. -/
theorem middle_other {C : Curve} (base : Bytes → Bytes → Bytes) {kP : Bytes} {K : Nat} {ks : Fin K → OtKey} {magic rng bs rest : Bytes}
    {role : Role} {keyB gB : Bytes} {dB : List Bytes} (hk : bs.take 64 = keyB)
    {peerKey garbage : Bytes} {decoys : List Bytes} {version : UInt8 × Bytes}
    (hadm : Spec.Admissible magic (Spec.directions (Spec.lotteryDir C base kP ks) magic ((Spec.lotteryDir C base kP ks).ellswift rng) peerKey rng
      role.initiating).2.2.2 peerKey garbage decoys version)
    (hb : bs = Spec.peerTranscript (Spec.lotteryDir C base kP ks) (Spec.directions (Spec.lotteryDir C base kP ks) magic
      ((Spec.lotteryDir C base kP ks).ellswift rng) peerKey rng role.initiating).2 peerKey garbage decoys version ++ rest)
    (hne : bs ≠ Spec.ownTranscript (Spec.lotteryDir C base kP ks) (Spec.directions (rfc C) magic (C.ellswift rng) keyB rng role.initiating).2
      keyB gB dB ++ rest)
    (hkP : kP = (Spec.directions (rfc C) magic (C.ellswift rng) keyB rng role.initiating).2.2.1) :
    ∃ g d v rest, (∀ j < g.length, ¬ Spec.OccursAt (Spec.directions (rfc C) magic (C.ellswift rng) keyB rng role.initiating).2.2.2
        (g ++ (Spec.directions (rfc C) magic (C.ellswift rng) keyB rng role.initiating).2.2.2) j) ∧ g.length ≤ 4095 ∧
      v.1 ≠ 0x80 ∧ (∀ m ∈ Spec.handshakeMessages d v, m.2.length < 2 ^ 24) ∧
      bs.drop 64 = g ++ (Spec.directions (rfc C) magic (C.ellswift rng) keyB rng role.initiating).2.2.2 ++
        Spec.packetStream (Spec.lotteryDir C base kP ks) (Spec.directions (rfc C) magic (C.ellswift rng) keyB rng role.initiating).2.1 kP 0 g
          (Spec.handshakeMessages d v) ++ rest ∧ ¬ (g = gB ∧ d = dB ∧ v = (0, [])) := by
  rw [directions_lotteryDir] at hadm hb
  change Spec.Admissible magic (Spec.directions (rfc C) magic (C.ellswift rng) peerKey rng role.initiating).2.2.2 peerKey garbage decoys
    version at hadm
  change bs = Spec.peerTranscript _ (Spec.directions (rfc C) magic (C.ellswift rng) peerKey rng role.initiating).2 peerKey garbage decoys
    version ++ rest at hb
  have hkey : peerKey = keyB := by
    rw [← hk, hb, Spec.peerTranscript, List.append_assoc, List.append_assoc, List.append_assoc, take_append_len _ _ hadm.keyLength.symm]
  subst hkey
  refine ⟨garbage, decoys, version, rest, hadm.firstTerminator, hadm.garbageLength, hadm.versionGenuine, ?_, ?_, ?_⟩
  · intro m hm
    simp only [Spec.handshakeMessages, List.mem_append, List.mem_map, List.mem_singleton] at hm
    rcases hm with ⟨d, hd, rfl⟩ | rfl
    · have := hadm.decoyLength d hd
      simp only
      omega
    · have := hadm.versionLength
      omega
  · rw [hb, Spec.peerTranscript, List.append_assoc, List.append_assoc, List.append_assoc, drop_append_len _ _ hadm.keyLength.symm, hkP]
    simp only [List.append_assoc]
  · rintro ⟨rfl, rfl, rfl⟩
    apply hne
    rw [Spec.ownTranscript, Ref.versionBytes_stream]
    rw [Spec.peerTranscript] at hb
    simp only [List.append_assoc] at hb ⊢
    exact hb

/-- C87 without the assumption, blocking API.  The peer, whose public key is `keyB`, has written its handshake with the garbage `gB` and the
decoys `dB`, and `later` after it; `wire` is what the network saw of the packets.  The library is given arbitrary bytes that begin with
`keyB`, by an arbitrary transport.  Of all one-time keys of the peer's packets which agree with `wire`, at most the fraction
`(2 ^ 23 + 2056) / 2 ^ 106` lets the library complete the handshake on anything but exactly the bytes of the peer. -/
theorem C87_chance_sync {C : Curve} (hC : C.Lawful) (base : Bytes → Bytes → Bytes) {magic rng : Bytes} {role : Role} {g : Option Bytes}
    {d : Option (List Bytes)} {reader : Source} {writer : Sink} (hd : (d.getD []).length + 1 < 2 ^ 32) (hlen : reader.bytes.length < 2 ^ 36)
    {keyB gB : Bytes} {dB : List Bytes} {later : List (UInt8 × Bytes)} {K : Nat} (hkey : reader.bytes.take 64 = keyB) (hgB : gB.length ≤ 4095)
    (hms : ∀ m ∈ Spec.handshakeMessages dB (0, []) ++ later, m.2.length < 2 ^ 24)
    (hs : (Spec.handshakeMessages dB (0, []) ++ later).length ≤ K) (hK : (reader.bytes.length - 64) / 20 ≤ K) (hK' : K < 2 ^ 64) (wire : Bytes) :
    let D := Spec.directions (rfc C) magic (C.ellswift rng) keyB rng role.initiating
    let Q (ks : Fin K → OtKey) := Spec.lotteryDir C base D.2.2.1 ks
    let Seen (ks : Fin K → OtKey) := Spec.packetStream (Q ks) D.2.1 D.2.2.1 0 gB (Spec.handshakeMessages dB (0, []) ++ later) = wire
    let Deceived (ks : Fin K → OtKey) := ∃ p, SyncProtocol.new (Q ks) prof magic role rng g d reader writer = .ok p ∧
      reader.bytes ≠ Spec.ownTranscript (Q ks) D.2 keyB gB dB ++ p.reader.reader.bytes
    ∀ [DecidablePred Seen] [DecidablePred fun ks => Seen ks ∧ Deceived ks],
    (Finset.univ.filter fun ks : Fin K → OtKey => Seen ks ∧ Deceived ks).card * 2 ^ 106
      ≤ (2 ^ 23 + 2056) * (Finset.univ.filter fun ks : Fin K → OtKey => Seen ks).card := by
  intro D Q Seen Deceived _ _
  have h := middle_bound hC base D.2.1 D.2.2.1 D.2.2.2 hK' gB hgB dB later hms hs wire (reader.bytes.drop 64)
    (by rw [List.length_drop]; exact hK) Deceived ?_
  · convert h
  rintro ks ⟨p, hr, hne⟩
  unfold SyncProtocol.new at hr
  rcases hh : handshake syncApi (Q ks) prof magic role rng g d reader writer with ⟨w', log, ⟨i, o, s⟩ | e | _⟩ <;> simp only [hh] at hr
  case err => simp at hr
  case panic => simp at hr
  simp only [Outcome.ok.injEq] at hr
  subst hr
  obtain ⟨peerKey, garbage, decoys, version, hadm, hb, -, -, -⟩ := C47_sync_sound (withOneTimeKeys_lawful hC _) hd hlen hh
  exact middle_other base hkey hadm hb hne rfl

/-- C87 without the assumption, asynchronous API. -/
theorem C87_chance_async {C : Curve} (hC : C.Lawful) (base : Bytes → Bytes → Bytes) {magic rng : Bytes} {role : Role} {g : Option Bytes}
    {d : Option (List Bytes)} {reader : Source} {writer : Sink} (hd : (d.getD []).length + 1 < 2 ^ 32) (hlen : reader.bytes.length < 2 ^ 36)
    {keyB gB : Bytes} {dB : List Bytes} {later : List (UInt8 × Bytes)} {K : Nat} (hkey : reader.bytes.take 64 = keyB) (hgB : gB.length ≤ 4095)
    (hms : ∀ m ∈ Spec.handshakeMessages dB (0, []) ++ later, m.2.length < 2 ^ 24)
    (hs : (Spec.handshakeMessages dB (0, []) ++ later).length ≤ K) (hK : (reader.bytes.length - 64) / 20 ≤ K) (hK' : K < 2 ^ 64) (wire : Bytes) :
    let D := Spec.directions (rfc C) magic (C.ellswift rng) keyB rng role.initiating
    let Q (ks : Fin K → OtKey) := Spec.lotteryDir C base D.2.2.1 ks
    let Seen (ks : Fin K → OtKey) := Spec.packetStream (Q ks) D.2.1 D.2.2.1 0 gB (Spec.handshakeMessages dB (0, []) ++ later) = wire
    let Deceived (ks : Fin K → OtKey) := ∃ p, AsyncProtocol.new (Q ks) prof magic role rng g d reader writer = .ok p ∧
      reader.bytes ≠ Spec.ownTranscript (Q ks) D.2 keyB gB dB ++ p.reader.reader.remaining
    ∀ [DecidablePred Seen] [DecidablePred fun ks => Seen ks ∧ Deceived ks],
    (Finset.univ.filter fun ks : Fin K → OtKey => Seen ks ∧ Deceived ks).card * 2 ^ 106
      ≤ (2 ^ 23 + 2056) * (Finset.univ.filter fun ks : Fin K → OtKey => Seen ks).card := by
  intro D Q Seen Deceived _ _
  have h := middle_bound hC base D.2.1 D.2.2.1 D.2.2.2 hK' gB hgB dB later hms hs wire (reader.bytes.drop 64)
    (by rw [List.length_drop]; exact hK) Deceived ?_
  · convert h
  rintro ks ⟨p, hr, hne⟩
  unfold AsyncProtocol.new at hr
  rcases hh : handshake asyncApi (Q ks) prof magic role rng g d reader writer with ⟨w', log, ⟨i, o, s⟩ | e | _⟩ <;> simp only [hh] at hr
  case err => simp at hr
  case panic => simp at hr
  simp only [Outcome.ok.injEq] at hr
  subst hr
  obtain ⟨peerKey, garbage, decoys, version, hadm, hb, -, -, -⟩ := C47_async_sound (withOneTimeKeys_lawful hC _) hd hlen hh
  exact middle_other base hkey hadm hb hne rfl

/-! ## Non-vacuity -/

/-- A key exchange that satisfies the assumption. -/
def toyCurve : Curve := ⟨toy.validSecret, toy.ellswift, toy.ecdh⟩

theorem toyCurve_lawful : toyCurve.Lawful := ⟨toy_lawful.ellswift_length, toy_lawful.ecdh_agree⟩

/-- The keys in the example. -/
def chanceDirections : (Bytes × Bytes × Bytes) × (Bytes × Bytes × Bytes) :=
  Spec.directions (rfc toyCurve) [1, 2, 3, 4] (toy.ellswift (leBytes 32 77)) (toy.ellswift (leBytes 32 99)) (leBytes 32 77) true

/-- The peer with the draw `r = 0`: every message has the same tag. -/
def chanceBytes (garbage : Bytes) : Bytes :=
  toy.ellswift (leBytes 32 99) ++ garbage ++ chanceDirections.2.2.2 ++
    Spec.packetStream (Spec.lotteryDir toyCurve (fun _ _ => zeros 32) chanceDirections.2.2.1 unlucky) chanceDirections.2.1
      chanceDirections.2.2.1 0 [9] [(0, [])]

/-- The exception is real: with this one-time key the handshake completes although a bit of the garbage was changed on the way. -/
theorem C87_not_never :
    ((SyncProtocol.new (Spec.lotteryDir toyCurve (fun _ _ => zeros 32) chanceDirections.2.2.1 unlucky) .debug [1, 2, 3, 4] .initiator
      (leBytes 32 77) none none [.data (chanceBytes [8])] ⟨[], [], []⟩) matches .ok _) ∧ chanceBytes [8] ≠ chanceBytes [9] := by
  decide +kernel

/-- These bytes meet the hypotheses of `C87_chance_sync`, with one packet. -/
example :
    (Spec.handshakeMessages [] (0, []) ++ []).length ≤ 1 ∧ ((Source.bytes [.data (chanceBytes [8])]).length - 64) / 20 ≤ 1 ∧
    (Source.bytes [.data (chanceBytes [8])]).take 64 = toyCurve.ellswift (leBytes 32 99) := by decide +kernel

end Bip324
