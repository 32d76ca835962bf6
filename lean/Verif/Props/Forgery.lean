import Mathlib.Data.Fintype.BigOperators
import Verif.Concrete.Poly1305
import Verif.Concrete.Instance
import Verif.Lemmas.Ask

/-!
# Forged packets

The authentication of ChaCha20-Poly1305 rests on a one-time key for each packet, the first 32 bytes of block 0
of the key stream.  Here these keys are drawn at random, everything else is as the RFC says.  The attacker sees
what the sender writes, knows what the sender said and knows all cipher keys, and then gives the reader any
bytes in any pieces: the reader delivers a front part of what was sent, except for a fraction of the one-time
keys below `(2 ^ 23 + 8) / 2 ^ 106` for each read.
-/

namespace Bip324

open Concrete

variable {prof : Profile}

attribute [local irreducible] chacha20 poly1305 chachaBlock keystream

namespace Spec

/-- RFC 8439, 2.8: what is authenticated. -/
def macData (aad ct : Bytes) : Bytes :=
  aad ++ pad16 aad ++ ct ++ pad16 ct ++ leBytes 8 aad.length ++ leBytes 8 ct.length

/-- RFC 8439 with one-time keys from an arbitrary function of key and nonce. -/
def withOneTimeKeys (C : Curve) (otk : Bytes → Bytes → Bytes) : Prims :=
  { rfc C with
    sealC := fun k n aad text => (chacha20 k n 1 text, poly1305 (otk k n) (macData aad (chacha20 k n 1 text)))
    openC := fun k n aad ct tag =>
      if poly1305 (otk k n) (macData aad ct) = tag then some (chacha20 k n 1 ct) else none }

/-- The packet number in a nonce of BIP-324. -/
def numberOf (nonce : Bytes) : Nat := leNat (nonce.take 4) + 224 * leNat (nonce.drop 4)

/-- The one-time keys of the packets `n`, ..., `n + K - 1` are those drawn, the others are as they may be. -/
def drawn (n : Nat) {K : Nat} (ks : Fin K → OtKey) (base : Bytes → Bytes → Bytes) (key nonce : Bytes) : Bytes :=
  if h : n ≤ numberOf nonce ∧ numberOf nonce - n < K then (ks ⟨numberOf nonce - n, h.2⟩).bytes
  else base key nonce

/-- The library's cryptography with the one-time keys drawn. -/
def lottery (C : Curve) (base : Bytes → Bytes → Bytes) (n : Nat) {K : Nat} (ks : Fin K → OtKey) : Prims :=
  withOneTimeKeys C (drawn n ks base)

end Spec

/-- Nothing else is changed: with the one-time keys of the RFC this is the RFC. -/
theorem withOneTimeKeys_rfc (C : Curve) :
    Spec.withOneTimeKeys C (fun k n => (chachaBlock k n 0).take 32) = rfc C := rfl

/-- The laws hold whatever the one-time keys are. -/
theorem withOneTimeKeys_lawful {C : Curve} (hC : C.Lawful) (otk : Bytes → Bytes → Bytes) :
    Lawful (Spec.withOneTimeKeys C otk) where
  seal_length k n _ c := chacha20_length k n 1 c
  tag_length _ _ _ _ := poly1305_length _ _
  open_iff k n a c t p := by
    simp only [Spec.withOneTimeKeys]
    constructor
    · intro h
      split at h
      · rename_i ht
        simp only [Option.some.injEq] at h
        rw [← h, chacha20_involutive]
        simp only [ht]
      · cases h
    · intro h
      simp only [Prod.mk.injEq] at h
      obtain ⟨h1, h2⟩ := h
      rw [h1] at h2
      rw [if_pos h2, ← h1, chacha20_involutive]
  seal_aad _ _ _ _ _ := rfl
  ellswift_length := hC.ellswift_length
  ecdh_agree := hC.ecdh_agree
  hkdf_ok := hkdf_ok

theorem same_withOneTimeKeys (C : Curve) (otk : Bytes → Bytes → Bytes) :
    SameCipher (rfc C) (Spec.withOneTimeKeys C otk) := ⟨rfl, fun _ _ _ _ => rfl⟩

theorem numberOf_packetNonce {m : Nat} (hm : m < 2 ^ 64) : Spec.numberOf (Spec.packetNonce m) = m := by
  have h1 : m % 224 % 256 ^ 4 = m % 224 := Nat.mod_eq_of_lt (by omega)
  have h2 : m / 224 % 256 ^ 8 = m / 224 := Nat.mod_eq_of_lt (by omega)
  unfold Spec.numberOf Spec.packetNonce
  rw [spec_le, spec_le, List.take_left' (leBytes_length _ _), List.drop_left' (leBytes_length _ _), leNat_leBytes,
    leNat_leBytes, h1, h2]
  omega

/-- What is authenticated determines the ciphertext. -/
theorem macData_inj {ct ct' : Bytes} (h1 : ct.length < 2 ^ 64) (h2 : ct'.length < 2 ^ 64)
    (h : Spec.macData [] ct = Spec.macData [] ct') : ct = ct' := by
  unfold Spec.macData at h
  obtain ⟨ha, hb⟩ := List.append_inj' h (by rw [leBytes_length, leBytes_length])
  have hl : ct.length = ct'.length := leBytes_inj (n := 8) h1 h2 hb
  obtain ⟨hc, -⟩ := List.append_inj' ha rfl
  have hd := (List.append_inj' hc (by simp [pad16, zeros, hl])).1
  exact List.append_cancel_left hd

theorem macData_length {ct : Bytes} (h : ct.length ≤ 2 ^ 24) :
    ((Spec.macData [] ct).length + 15) / 16 ≤ 2 ^ 20 + 1 := by
  unfold Spec.macData pad16
  simp only [List.length_append, List.length_nil, zeros_length, leBytes_length]
  omega

/-- Drawing independently: a condition on one draw alone. -/
theorem one_draw {κ : Type} [Fintype κ] [DecidableEq κ] {K : Nat} (A : Fin K → Finset κ) (j : Fin K)
    (F : Finset κ) (a b : Nat) (h : (A j ∩ F).card * b ≤ a * (A j).card) :
    ((Fintype.piFinset A).filter (fun ks => ks j ∈ F)).card * b ≤ a * (Fintype.piFinset A).card := by
  have hsub : (Fintype.piFinset A).filter (fun ks => ks j ∈ F)
      = Fintype.piFinset (Function.update A j (A j ∩ F)) := by
    ext ks
    simp only [Finset.mem_filter, Fintype.mem_piFinset]
    constructor
    · rintro ⟨h1, h2⟩ i
      by_cases hi : i = j
      · subst hi; simp [h1 i, h2]
      · simp [Function.update_of_ne hi, h1 i]
    · intro h1
      refine ⟨fun i => ?_, ?_⟩
      · by_cases hi : i = j
        · subst hi
          have := h1 i
          simp only [Function.update_self, Finset.mem_inter] at this
          exact this.1
        · have := h1 i
          rwa [Function.update_of_ne hi] at this
      · have := h1 j
        simp only [Function.update_self, Finset.mem_inter] at this
        exact this.2
  rw [hsub, Fintype.card_piFinset, Fintype.card_piFinset, ← Finset.mul_prod_erase Finset.univ _ (Finset.mem_univ j),
    ← Finset.mul_prod_erase Finset.univ (fun i => (A i).card) (Finset.mem_univ j), Function.update_self]
  have : ∀ i ∈ Finset.univ.erase j, (Function.update A j (A j ∩ F) i).card = (A i).card := by
    intro i hi
    rw [Function.update_of_ne (Finset.ne_of_mem_erase hi)]
  rw [Finset.prod_congr rfl this]
  calc (A j ∩ F).card * (∏ i ∈ Finset.univ.erase j, (A i).card) * b
      = ((A j ∩ F).card * b) * ∏ i ∈ Finset.univ.erase j, (A i).card := by ring
    _ ≤ (a * (A j).card) * ∏ i ∈ Finset.univ.erase j, (A i).card := Nat.mul_le_mul_right _ h
    _ = a * ((A j).card * ∏ i ∈ Finset.univ.erase j, (A i).card) := by ring

/-- Two senders with the same cipher keys write the same bytes exactly if all tags are the same. -/
theorem stream_eq_iff {P P' : Prims} (h : SameCipher P P') (ht : ∀ k n a c, (P.sealC k n a c).2.length = 16)
    (ht' : ∀ k n a c, (P'.sealC k n a c).2.length = 16) (kL kP : Bytes) (ms : List (UInt8 × Bytes)) : ∀ n,
    Spec.packetStream P' kL kP n [] ms = Spec.packetStream P kL kP n [] ms ↔
      ∀ j m, ms[j]? = some m →
        (P'.sealC (Spec.packetKey P kP ((n + j) / 224)) (Spec.packetNonce (n + j)) [] (m.1 :: m.2)).2 =
        (P.sealC (Spec.packetKey P kP ((n + j) / 224)) (Spec.packetNonce (n + j)) [] (m.1 :: m.2)).2 := by
  induction ms with
  | nil => intro n; simp [Spec.packetStream]
  | cons m ms ih =>
    intro n
    simp only [Spec.packetStream, Spec.rawPacket, h.packetKey, h.lengthMask, h.seal1, List.append_assoc,
      List.append_cancel_left_eq]
    constructor
    · intro he j m' hm'
      obtain ⟨h1, h2⟩ := List.append_inj he (by rw [ht, ht'])
      cases j with
      | zero =>
        simp only [List.getElem?_cons_zero, Option.some.injEq] at hm'
        subst hm'
        exact h1
      | succ j =>
        rw [List.getElem?_cons_succ] at hm'
        have := (ih (n + 1)).1 h2 j m' hm'
        rw [show n + 1 + j = n + (j + 1) by omega] at this
        exact this
    · intro he
      have h1 := he 0 m rfl
      have h2 := (ih (n + 1)).2 (fun j m' hm' => by
        have := he (j + 1) m' (by rw [List.getElem?_cons_succ]; exact hm')
        rw [show n + (j + 1) = n + 1 + j by omega] at this
        exact this)
      rw [h2]
      exact congrArg (· ++ _) h1

theorem lottery_otk {base : Bytes → Bytes → Bytes} {n K : Nat} (ks : Fin K → OtKey) {i : Nat}
    (hi : n ≤ i) (hK : i - n < K) (h64 : i < 2 ^ 64) (key : Bytes) :
    Spec.drawn n ks base key (Spec.packetNonce i) = (ks ⟨i - n, hK⟩).bytes := by
  unfold Spec.drawn
  simp only [numberOf_packetNonce h64]
  rw [dif_pos ⟨hi, hK⟩]

/-- The reader as a machine which asks the AEAD at most `k` times: how many of the one-time keys which agree
with what was seen on the wire let it deliver something else than what was sent. -/
theorem forgery_bound {σ : Type} {step : StepOf σ} {pc : σ → FSAead} {good : σ → Prop} (C : Curve)
    (base : Bytes → Bytes → Bytes) (kL kP : Bytes) (n k K : Nat) (sent : List (UInt8 × Bytes)) (wire : Bytes) (s : σ)
    (hask : ∀ s, good s → AsksOnce (rfc C) prof step pc good s) (hg : good s)
    (hat : (pc s).At (rfc C) kP n) (hn : n + K < 2 ^ 64) (hk : k ≤ K) (hs : sent.length ≤ K)
    (hlen : ∀ m ∈ sent, m.2.length < 2 ^ 24) :
    (Finset.univ.filter (fun ks : Fin K → OtKey =>
        Spec.packetStream (Spec.lottery C base n ks) kL kP n [] sent = wire ∧
        ¬ payloads (resultsOf step (Spec.lottery C base n ks) k s) <+: sent.map delivered)).card * 2 ^ 106
      ≤ k * (2 ^ 23 + 8) * (Finset.univ.filter (fun ks : Fin K → OtKey =>
        Spec.packetStream (Spec.lottery C base n ks) kL kP n [] sent = wire)).card := by
  classical
  obtain ⟨W, hW⟩ : ∃ W, W = Finset.univ.filter (fun ks : Fin K → OtKey =>
        Spec.packetStream (Spec.lottery C base n ks) kL kP n [] sent = wire) := ⟨_, rfl⟩
  have hmemW : ∀ ks, ks ∈ W ↔ Spec.packetStream (Spec.lottery C base n ks) kL kP n [] sent = wire := by
    intro ks
    simp only [hW, Finset.mem_filter, Finset.mem_univ, true_and]
  rw [← hW]
  rcases Finset.eq_empty_or_nonempty W with he | ⟨ks0, hks0⟩
  · rw [Finset.filter_false_of_mem]
    · simp
    · rintro ks - ⟨h1, -⟩
      have := (hmemW ks).2 h1
      rw [he] at this
      exact absurd this (Finset.notMem_empty ks)
  have hsame : ∀ ks : Fin K → OtKey, SameCipher (rfc C) (Spec.lottery C base n ks) :=
    fun ks => same_withOneTimeKeys C _
  have hsame2 : ∀ ks : Fin K → OtKey, SameCipher (Spec.lottery C base n ks0) (Spec.lottery C base n ks) :=
    fun ks => ⟨rfl, fun _ _ _ _ => rfl⟩
  have hkeys : ∀ (ks : Fin K → OtKey) e, Spec.packetKey (Spec.lottery C base n ks) kP e = Spec.packetKey (rfc C) kP e :=
    fun ks e => (hsame ks).packetKey kP e
  let key : Nat → Bytes := fun i => Spec.packetKey (rfc C) kP (i / 224)
  let body : Nat → UInt8 × Bytes → Bytes := fun i m => chacha20 (key i) (Spec.packetNonce i) 1 (m.1 :: m.2)
  -- the tags which were seen
  let tag : Nat → UInt8 × Bytes → Bytes := fun i m =>
    poly1305 (Spec.drawn n ks0 base (key i) (Spec.packetNonce i)) (Spec.macData [] (body i m))
  have hsl : ∀ i m, (Spec.lottery C base n ks0).sealC (key i) (Spec.packetNonce i) [] (m.1 :: m.2)
      = (body i m, tag i m) := fun _ _ => rfl
  obtain ⟨A, hA⟩ : ∃ A : Fin K → Finset OtKey, ∀ j k, k ∈ A j ↔ ∀ m, sent[j.val]? = some m →
      poly1305 (OtKey.bytes k) (Spec.macData [] (body (n + j.val) m)) = tag (n + j.val) m :=
    ⟨fun j => Finset.univ.filter (fun k : OtKey => ∀ m, sent[j.val]? = some m →
      poly1305 k.bytes (Spec.macData [] (body (n + j.val) m)) = tag (n + j.val) m),
      fun j k => by simp only [Finset.mem_filter, Finset.mem_univ, true_and]⟩
  have hlt : ∀ j m, sent[j]? = some m → j < K := by
    intro j m hm
    have := (List.getElem?_eq_some_iff.1 hm).1
    omega
  have hWA : W = Fintype.piFinset A := by
    ext ks
    rw [hmemW, ← (hmemW ks0).1 hks0, stream_eq_iff (hsame2 ks) (fun _ _ _ _ => poly1305_length _ _)
      (fun _ _ _ _ => poly1305_length _ _), Fintype.mem_piFinset]
    constructor
    · intro h j
      rw [hA]
      intro m hm
      have := h j.val m hm
      rw [hkeys] at this
      simp only [Spec.lottery, Spec.withOneTimeKeys] at this
      rw [lottery_otk ks (by omega) (by rw [Nat.add_sub_cancel_left]; exact j.isLt)
        (by have := j.isLt; omega)] at this
      simp only [Nat.add_sub_cancel_left] at this
      exact this
    · intro h j m hm
      have hj := hlt j m hm
      have := (hA _ _).1 (h ⟨j, hj⟩) m hm
      rw [hkeys]
      simp only [Spec.lottery, Spec.withOneTimeKeys]
      rw [lottery_otk ks (by omega) (by rw [Nat.add_sub_cancel_left]; exact hj) (by omega)]
      simp only [Nat.add_sub_cancel_left]
      exact this
  -- the AEAD which accepts what was sent and nothing else
  let Q : Prims := { rfc C with
    openC := fun key nonce aad ct t =>
      match sent[Spec.numberOf nonce - n]? with
      | none => none
      | some m =>
        if aad = [] ∧ (Spec.lottery C base n ks0).sealC key nonce [] (m.1 :: m.2) = (ct, t) then some (m.1 :: m.2)
        else none }
  have hQ : SameCipher (rfc C) Q := ⟨rfl, fun _ _ _ _ => rfl⟩
  have hsent : ∀ a : Attempt, ∀ plain, n ≤ a.number → a.number < 2 ^ 64 → a.ask (rfc C) kP Q = some plain →
      plain.length = a.body.length ∧ ∃ m, sent[a.number - n]? = some m ∧ plain = m.1 :: m.2 := by
    intro a plain ha hb h
    simp only [Attempt.ask, Q, numberOf_packetNonce hb] at h
    cases hm : sent[a.number - n]? with
    | none => simp only [hm] at h; cases h
    | some m =>
      simp only [hm] at h
      split at h
      · rename_i hc
        simp only [Option.some.injEq] at h
        subst h
        refine ⟨?_, m, rfl, rfl⟩
        have := congrArg Prod.fst hc.2
        simp only [Spec.lottery, Spec.withOneTimeKeys] at this
        rw [← this, chacha20_length]
      · cases h
  obtain ⟨atts, h1, h2, ⟨l, hl, h3⟩, h4⟩ := ideal_run (n := n) hask hQ hsent k 0 s hg hat (by omega)
  -- a question which is answered differently is a forgery
  let forged : Attempt → Finset OtKey → Prop := fun a F => ∀ k : OtKey, k ∈ F ↔
    poly1305 k.bytes (Spec.macData [] a.body) = a.tag ∧
    ∀ m, sent[a.number - n]? = some m → (body a.number m, tag a.number m) ≠ (a.body, a.tag)
  have hex : ∀ a, ∃ F, forged a F := fun a => ⟨Finset.univ.filter (fun k : OtKey =>
    poly1305 k.bytes (Spec.macData [] a.body) = a.tag ∧
    ∀ m, sent[a.number - n]? = some m → (body a.number m, tag a.number m) ≠ (a.body, a.tag)),
      fun k => by simp only [Finset.mem_filter, Finset.mem_univ, true_and]⟩
  choose F hF using hex
  have hbad : ∀ ks ∈ W, ¬ payloads (resultsOf step (Spec.lottery C base n ks) k s) <+: sent.map delivered →
      ∃ a ∈ atts, ∃ j : Fin K, j.val = a.number - n ∧ ks j ∈ F a := by
    intro ks hks hnot
    by_contra hno
    apply hnot
    rw [h4 _ (hsame ks) ?_, h3]
    · exact hl.map delivered
    · intro a ha
      obtain ⟨b1, b2, b3, b4⟩ := h2 a ha
      have hj : a.number - n < K := by omega
      have h64 : a.number < 2 ^ 64 := by omega
      have hnf : ks ⟨a.number - n, hj⟩ ∉ F a := fun hf => hno ⟨a, ha, ⟨a.number - n, hj⟩, rfl, hf⟩
      rw [hF a, not_and] at hnf
      have hreal : a.ask (rfc C) kP (Spec.lottery C base n ks) =
          if poly1305 (ks ⟨a.number - n, hj⟩).bytes (Spec.macData [] a.body) = a.tag
          then some (chacha20 (key a.number) (Spec.packetNonce a.number) 1 a.body) else none := by
        simp only [Attempt.ask, Spec.lottery, Spec.withOneTimeKeys, lottery_otk ks b1 hj h64]
        rfl
      have hideal : a.ask (rfc C) kP Q =
          match sent[a.number - n]? with
          | none => none
          | some m => if (body a.number m, tag a.number m) = (a.body, a.tag) then some (m.1 :: m.2) else none := by
        simp only [Attempt.ask, Q, numberOf_packetNonce h64, true_and]
        rfl
      rw [hreal, hideal]
      by_cases ht : poly1305 (ks ⟨a.number - n, hj⟩).bytes (Spec.macData [] a.body) = a.tag
      · rw [if_pos ht]
        have := hnf ht
        simp only [not_forall] at this
        obtain ⟨m, hm, heq⟩ := this
        have heq := not_not.1 heq
        rw [hm]
        simp only []
        rw [if_pos heq]
        have hb : body a.number m = a.body := congrArg Prod.fst heq
        rw [← hb]
        simp only [body, chacha20_involutive]
      · rw [if_neg ht]
        cases hm : sent[a.number - n]? with
        | none => rfl
        | some m =>
          simp only []
          rw [if_neg]
          intro heq
          apply ht
          have hks' := (hA ⟨a.number - n, hj⟩ (ks ⟨a.number - n, hj⟩)).1
            (by rw [hWA] at hks; exact Fintype.mem_piFinset.1 hks _) m hm
          simp only [Nat.add_sub_cancel' b1] at hks'
          have hb : body a.number m = a.body := congrArg Prod.fst heq
          have hb' : tag a.number m = a.tag := congrArg Prod.snd heq
          rw [← hb, ← hb']
          exact hks'
  -- each attempt is a forgery for few keys
  have hfew : ∀ a ∈ atts, ∀ j : Fin K, j.val = a.number - n →
      (W.filter (fun ks => ks j ∈ F a)).card * 2 ^ 106 ≤ (2 ^ 23 + 8) * W.card := by
    intro a ha j hj
    obtain ⟨b1, b2, b3, b4⟩ := h2 a ha
    have hnj : n + j.val = a.number := by omega
    rw [hWA]
    refine one_draw A j (F a) _ _ ?_
    cases hm : sent[j.val]? with
    | none =>
      have hAu : A j = Finset.univ := by
        ext k
        rw [hA]
        simp [hm]
      have hFc : (F a).card ≤ 2 ^ 128 := by
        rw [← tag_count (Spec.macData [] a.body) a.tag b4]
        refine Finset.card_le_card (fun k hk => ?_)
        simp only [Finset.mem_filter, Finset.mem_univ, true_and]
        exact ((hF a k).1 hk).1
      rw [hAu, Finset.univ_inter, Finset.card_univ, Fintype.card_prod, Fintype.card_fin]
      calc (F a).card * 2 ^ 106 ≤ 2 ^ 128 * 2 ^ 106 := Nat.mul_le_mul_right _ hFc
        _ ≤ (2 ^ 23 + 8) * (2 ^ 128 * 2 ^ 128) := by norm_num
    | some m =>
      have hml := hlen m (List.mem_of_getElem? hm)
      have hbl : (body a.number m).length ≤ 2 ^ 24 := by
        simp only [body, chacha20_length, List.length_cons]
        omega
      have hAc : (A j).card = 2 ^ 128 := by
        rw [← tag_count (Spec.macData [] (body a.number m)) (tag a.number m) (poly1305_length _ _)]
        refine congrArg Finset.card (Finset.ext fun k => ?_)
        rw [hA]
        simp only [Finset.mem_filter, Finset.mem_univ, true_and, hm, Option.some.injEq, forall_eq', hnj]
      have hAF : (A j ∩ F a).card ≤ 8 * (2 ^ 20 + 1) * 2 ^ 22 := by
        by_cases hne : (body a.number m, tag a.number m) = (a.body, a.tag)
        · have : F a = ∅ := by
            ext k
            rw [hF a]
            constructor
            · rintro ⟨-, h⟩
              exact absurd hne (h m (by rw [← hj]; exact hm))
            · intro h
              exact absurd h (Finset.notMem_empty k)
          rw [this, Finset.inter_empty]
          simp
        · refine le_trans (Finset.card_le_card ?_) (forge_count (Spec.macData [] (body a.number m))
            (Spec.macData [] a.body) (tag a.number m) a.tag ?_ (2 ^ 20 + 1) (macData_length hbl) (macData_length b3))
          · intro k hk
            simp only [Finset.mem_inter] at hk
            have hk1 := hk.1
            have hk2 := hk.2
            simp only [Finset.mem_filter, Finset.mem_univ, true_and]
            refine ⟨?_, ((hF a k).1 hk2).1⟩
            have := (hA j k).1 hk1 m hm
            rw [hnj] at this
            exact this
          · intro heq
            apply hne
            obtain ⟨e1, e2⟩ := Prod.mk.inj heq
            rw [macData_inj (by omega) (by omega) e1, e2]
      rw [hAc]
      calc (A j ∩ F a).card * 2 ^ 106 ≤ 8 * (2 ^ 20 + 1) * 2 ^ 22 * 2 ^ 106 := Nat.mul_le_mul_right _ hAF
        _ = (2 ^ 23 + 8) * 2 ^ 128 := by norm_num
  -- together
  have hcover : Finset.univ.filter (fun ks : Fin K → OtKey =>
        Spec.packetStream (Spec.lottery C base n ks) kL kP n [] sent = wire ∧
        ¬ payloads (resultsOf step (Spec.lottery C base n ks) k s) <+: sent.map delivered)
      ⊆ atts.toFinset.biUnion (fun a => W.filter (fun ks => ∃ j : Fin K, j.val = a.number - n ∧ ks j ∈ F a)) := by
    intro ks hks
    simp only [Finset.mem_filter, Finset.mem_univ, true_and] at hks
    obtain ⟨a, ha, hj⟩ := hbad ks ((hmemW ks).2 hks.1) hks.2
    exact Finset.mem_biUnion.2 ⟨a, List.mem_toFinset.2 ha, Finset.mem_filter.2 ⟨(hmemW ks).2 hks.1, hj⟩⟩
  have hone : ∀ a ∈ atts.toFinset,
      (W.filter (fun ks => ∃ j : Fin K, j.val = a.number - n ∧ ks j ∈ F a)).card * 2 ^ 106 ≤ (2 ^ 23 + 8) * W.card := by
    intro a ha
    have ha := List.mem_toFinset.1 ha
    obtain ⟨b1, b2, -, -⟩ := h2 a ha
    have hj : a.number - n < K := by omega
    refine le_trans (Nat.mul_le_mul_right _ (Finset.card_le_card ?_)) (hfew a ha ⟨a.number - n, hj⟩ rfl)
    intro ks hks
    obtain ⟨hw, j, hj', hf⟩ := Finset.mem_filter.1 hks
    refine Finset.mem_filter.2 ⟨hw, ?_⟩
    have : j = ⟨a.number - n, hj⟩ := Fin.ext hj'
    rw [← this]
    exact hf
  calc _ ≤ _ := Nat.mul_le_mul_right _ (le_trans (Finset.card_le_card hcover) Finset.card_biUnion_le)
    _ = ∑ a ∈ atts.toFinset, (W.filter (fun ks => ∃ j : Fin K, j.val = a.number - n ∧ ks j ∈ F a)).card * 2 ^ 106 :=
        Finset.sum_mul _ _ _
    _ ≤ atts.toFinset.card • ((2 ^ 23 + 8) * W.card) := Finset.sum_le_card_nsmul _ _ _ hone
    _ ≤ k * ((2 ^ 23 + 8) * W.card) := by
        rw [smul_eq_mul]
        exact Nat.mul_le_mul_right _ (le_trans (List.toFinset_card_le _) h1)
    _ = k * (2 ^ 23 + 8) * W.card := by ring

/-- C67, blocking API.  The sender has written `sent` as the packets from number `n` on, and `wire` is what the
network saw of it.  The reader is given arbitrary bytes, by an arbitrary transport, and reads `k` times.  Of all
one-time keys which agree with `wire` at most the fraction `k * (2 ^ 23 + 8) / 2 ^ 106` makes it deliver
something that is not a front part of what was sent. -/
theorem C67_sync (C : Curve) (base : Bytes → Bytes → Bytes) (kL kP : Bytes) (n k K : Nat)
    (sent : List (UInt8 × Bytes)) (wire : Bytes) (r : SyncReader)
    (hat : r.cipher.packetCipher.At (rfc C) kP n) (hn : n + K < 2 ^ 64) (hk : k ≤ K) (hs : sent.length ≤ K)
    (hlen : ∀ m ∈ sent, m.2.length < 2 ^ 24) :
    (Finset.univ.filter (fun ks : Fin K → OtKey =>
        Spec.packetStream (Spec.lottery C base n ks) kL kP n [] sent = wire ∧
        ¬ payloads (r.readMany (Spec.lottery C base n ks) prof k).2 <+: sent.map delivered)).card * 2 ^ 106
      ≤ k * (2 ^ 23 + 8) * (Finset.univ.filter (fun ks : Fin K → OtKey =>
        Spec.packetStream (Spec.lottery C base n ks) kL kP n [] sent = wire)).card := by
  simp only [readMany_results]
  exact forgery_bound C base kL kP n k K sent wire r (fun r _ => sync_asks prof r) trivial hat hn hk hs hlen

/-- C67, polled API: for every sequence of polls and cancellations. -/
theorem C67_async (C : Curve) (base : Bytes → Bytes → Bytes) (kL kP : Bytes) (n K : Nat)
    (sent : List (UInt8 × Bytes)) (wire : Bytes) (r : AsyncReader) (es : List ReadEvent)
    (hat : r.cipher.packetCipher.At (rfc C) kP n) (hst : r.state = .initReadingLength) (hn : n + K < 2 ^ 64)
    (hk : es.length ≤ K) (hs : sent.length ≤ K) (hlen : ∀ m ∈ sent, m.2.length < 2 ^ 24) :
    (Finset.univ.filter (fun ks : Fin K → OtKey =>
        Spec.packetStream (Spec.lottery C base n ks) kL kP n [] sent = wire ∧
        ¬ payloads (r.run (Spec.lottery C base n ks) prof es).2 <+: sent.map delivered)).card * 2 ^ 106
      ≤ es.length * (2 ^ 23 + 8) * (Finset.univ.filter (fun ks : Fin K → OtKey =>
        Spec.packetStream (Spec.lottery C base n ks) kL kP n [] sent = wire)).card := by
  simp only [run_results]
  have hp := pollsIn_le es
  have hsz : r.Sized := by
    unfold AsyncReader.Sized
    rw [hst]
    exact ⟨zeros_length 3, Nat.zero_le _⟩
  refine le_trans (forgery_bound (prof := prof) C base kL kP n (pollsIn es) K sent wire r
    (fun r hr => async_asks prof r hr) hsz hat hn (by omega) hs hlen) ?_
  exact Nat.mul_le_mul_right _ (Nat.mul_le_mul_right _ hp)

/-- C67 in round numbers: below `2 ^ 39` reads, less than one in `2 ^ 43` one-time keys. -/
theorem C67_rare (C : Curve) (base : Bytes → Bytes → Bytes) (kL kP : Bytes) (n k K : Nat)
    (sent : List (UInt8 × Bytes)) (wire : Bytes) (r : SyncReader)
    (hat : r.cipher.packetCipher.At (rfc C) kP n) (hn : n + K < 2 ^ 64) (hk : k ≤ K) (hs : sent.length ≤ K)
    (hlen : ∀ m ∈ sent, m.2.length < 2 ^ 24) (h39 : k ≤ 2 ^ 39) :
    (Finset.univ.filter (fun ks : Fin K → OtKey =>
        Spec.packetStream (Spec.lottery C base n ks) kL kP n [] sent = wire ∧
        ¬ payloads (r.readMany (Spec.lottery C base n ks) prof k).2 <+: sent.map delivered)).card * 2 ^ 43
      ≤ (Finset.univ.filter (fun ks : Fin K → OtKey =>
        Spec.packetStream (Spec.lottery C base n ks) kL kP n [] sent = wire)).card := by
  have h := C67_sync (prof := prof) C base kL kP n k K sent wire r hat hn hk hs hlen
  generalize (Finset.univ.filter (fun ks : Fin K → OtKey =>
        Spec.packetStream (Spec.lottery C base n ks) kL kP n [] sent = wire ∧
        ¬ payloads (r.readMany (Spec.lottery C base n ks) prof k).2 <+: sent.map delivered)).card = x at h ⊢
  generalize (Finset.univ.filter (fun ks : Fin K → OtKey =>
        Spec.packetStream (Spec.lottery C base n ks) kL kP n [] sent = wire)).card = y at h ⊢
  have h2 : k * (2 ^ 23 + 8) * y ≤ 2 ^ 39 * (2 ^ 23 + 8) * y :=
    Nat.mul_le_mul_right _ (Nat.mul_le_mul_right _ h39)
  have h3 : 2 ^ 39 * (2 ^ 23 + 8) * y ≤ 2 ^ 63 * y := Nat.mul_le_mul_right _ (by norm_num)
  have h4 : x * 2 ^ 43 * 2 ^ 63 ≤ y * 2 ^ 63 := by
    calc x * 2 ^ 43 * 2 ^ 63 = x * 2 ^ 106 := by ring
      _ ≤ 2 ^ 63 * y := le_trans h (le_trans h2 h3)
      _ = y * 2 ^ 63 := by ring
  exact Nat.le_of_mul_le_mul_right h4 (by norm_num)

/-! ## Non-vacuity

The set of keys which agree with the wire contains the sender's keys, the hypotheses hold of a new reader, and
the exception is real: a one-time key with `r = 0` gives every message the same tag. -/

/-- The sender's own keys agree with the wire. -/
theorem agree_self {K : Nat} (C : Curve) (base : Bytes → Bytes → Bytes) (kL kP : Bytes) (n : Nat)
    (ks : Fin K → OtKey) (sent : List (UInt8 × Bytes)) (wire : Bytes)
    (hw : Spec.packetStream (Spec.lottery C base n ks) kL kP n [] sent = wire) :
    ks ∈ Finset.univ.filter (fun ks' : Fin K → OtKey =>
      Spec.packetStream (Spec.lottery C base n ks') kL kP n [] sent = wire) := by
  simp only [Finset.mem_filter, Finset.mem_univ, true_and]
  exact hw

/-- Key exchange is not used by readers and writers. -/
def noCurve : Curve := ⟨fun _ => false, fun _ => [], fun _ _ _ _ _ => []⟩

/-- The unlucky draw. -/
def unlucky : Fin 1 → OtKey := fun _ => (0, 77)

/-- A reader which is given the packet after one bit was flipped. -/
def flippedReader (n : Nat) : SyncReader :=
  ⟨⟨FSStream.new (leBytes 32 98), FSAead.new (leBytes 32 99)⟩, ⟨[], false,
    [.data ((Spec.packetStream (Spec.lottery noCurve (fun _ _ => []) 0 unlucky) (leBytes 32 98) (leBytes 32 99) 0 []
      [(0, [1, 2, 3])]).mapIdx (fun i b => if i = n then b ^^^ 1 else b))]⟩⟩

theorem flippedReader_at (n : Nat) : (flippedReader n).cipher.packetCipher.At (rfc noCurve) (leBytes 32 99) 0 :=
  FSAead.at_new _

/-- The exception is real: with this one-time key the flipped packet is delivered. -/
theorem C67_not_never :
    (payloads ((flippedReader 5).readMany (Spec.lottery noCurve (fun _ _ => []) 0 unlucky) .debug 1).2
      == [delivered (0, [1, 3, 3])]) = true := by decide +kernel

/-- With one-time keys of the RFC it is not. -/
example : (payloads ((flippedReader 5).readMany (rfc noCurve) .debug 1).2 == []) = true := by decide +kernel

end Bip324
