import Mathlib.Data.Fintype.Card
import Mathlib.Data.Fintype.Prod
import Mathlib.Algebra.Order.BigOperators.Group.Finset
import Verif.Props.V1
import Verif.Lemmas.Accept

/-!
# What is left to chance between honest peers

C16, C26 and their followers ask that the garbage terminator does not occur in the garbage before its place, and that no key
begins with the magic.  Here it is counted how many terminators and keys break that.
-/

namespace Bip324

variable {P : Prims} {prof : Profile}

/-! ## Specification -/

namespace Spec

/-- The terminators drawn: the initiator's and the responder's, each of 16 bytes. -/
abbrev Terminators : Type := Fin (2 ^ 128) × Fin (2 ^ 128)

/-- The library's cryptography with the terminators drawn; all other keys are derived as before. -/
def withTerminators (P : Prims) (t : Terminators) : Prims :=
  { P with hkdf := fun salt ikm info len =>
      if info = lblTerminators ∧ len = 32 then some (leBytes 16 t.1.val ++ leBytes 16 t.2.val) else P.hkdf salt ikm info len }

end Spec

/-- The pair can talk to each other: all that is asked of an honest pair, except for the place of the terminators. -/
structure UsablePair (P : Prims) (prof : Profile) (magic rngI rngR : Bytes) (gI gR : Option Bytes)
    (dI dR : Option (List Bytes)) : Prop where
  newI : Spec.UsableKey P prof rngI
  newR : Spec.UsableKey P prof rngR
  magicI : (P.ellswift rngI).take 4 ≠ magic
  magicR : (P.ellswift rngR).take 4 ≠ magic
  garbageI : (gI.getD []).length ≤ 4095
  garbageR : (gR.getD []).length ≤ 4095
  decoysI : ∀ d ∈ dI.getD [], d.length ≤ 3999997
  decoysR : ∀ d ∈ dR.getD [], d.length ≤ 3999997
  countI : (dI.getD []).length + 1 < 2 ^ 32
  countR : (dR.getD []).length + 1 < 2 ^ 32

/-- Over a reliable byte stream with any segmentation both parties, each of either API, complete the handshake with matching
ciphers, having sent their bytes of BIP-324, and nothing that follows is lost. -/
def HandshakeWorks (P : Prims) (prof : Profile) (magic rngI rngR : Bytes) (gI gR : Option Bytes) (dI dR : Option (List Bytes)) :
    Prop :=
  ∃ (iI iR : InboundCipher) (oI oR : OutboundCipher), Matching oI iR ∧ Matching oR iI ∧
    (∀ A, A = syncApi ∨ A = asyncApi → ∀ (w : Sink) (src tail : Source) (k : ErrorKind) (more : Bytes),
      w.Reliable A.retry → EndsWith A.retry tail k →
      Streams false src (wireR P magic rngI rngR gR dR ++ more) tail →
      ∃ w' log s, handshake A P prof magic .initiator rngI gI dI src w = (w', log, .ok (iI, oI, s)) ∧
        w'.out = w.out ++ wireI P magic rngI rngR gI dI ∧ Readable A s more k) ∧
    (∀ A, A = syncApi ∨ A = asyncApi → ∀ (w : Sink) (src tail : Source) (k : ErrorKind) (more : Bytes),
      w.Reliable A.retry → EndsWith A.retry tail k →
      Streams false src (wireI P magic rngI rngR gI dI ++ more) tail →
      ∃ w' log s, handshake A P prof magic .responder rngR gR dR src w = (w', log, .ok (iR, oR, s)) ∧
        w'.out = w.out ++ wireR P magic rngI rngR gR dR ∧ Readable A s more k)

/-! ## Terminators -/

theorem withTerminators_lawful (hP : Lawful P) (t : Spec.Terminators) : Lawful (Spec.withTerminators P t) where
  seal_length := hP.seal_length
  tag_length := hP.tag_length
  open_iff := hP.open_iff
  seal_aad := hP.seal_aad
  ellswift_length := hP.ellswift_length
  ecdh_agree := hP.ecdh_agree
  hkdf_ok salt ikm info len h := by
    simp only [Spec.withTerminators]
    split
    · rename_i hi
      exact ⟨_, rfl, by simp [hi.2]⟩
    · exact hP.hkdf_ok salt ikm info len h

theorem expand_withTerminators (magic secret : Bytes) (t : Spec.Terminators) :
    Spec.expand (Spec.withTerminators P t) magic secret Spec.lblTerminators = leBytes 16 t.1.val ++ leBytes 16 t.2.val := by
  simp [Spec.expand, Spec.withTerminators]

/-- A terminator that occurs early at `j` is the only one that does. -/
theorem early_unique {g t u : Bytes} {j : Nat} (hj : j < g.length) (hl : t.length = u.length) (ht : Spec.OccursAt t (g ++ t) j)
    (hu : Spec.OccursAt u (g ++ u) j) : t = u := by
  have key : ∀ {v : Bytes}, Spec.OccursAt v (g ++ v) j → ∀ k, k < v.length → v[k]? = (g ++ v)[j + k]? := by
    rintro v ⟨pre, post, h, hp⟩ k hk
    rw [h, List.append_assoc, List.getElem?_append_right (by omega), hp, Nat.add_sub_cancel_left, List.getElem?_append_left hk]
  have all : ∀ k, k < t.length → t[k]? = u[k]? := by
    intro k
    induction k using Nat.strongRecOn with
    | _ k ih =>
      intro hk
      rw [key ht k hk, key hu k (by omega)]
      by_cases h : j + k < g.length
      · rw [List.getElem?_append_left h, List.getElem?_append_left h]
      · rw [List.getElem?_append_right (by omega), List.getElem?_append_right (by omega)]
        exact ih _ (by omega) (by omega)
  apply List.ext_getElem?
  intro k
  by_cases hk : k < t.length
  · exact all k hk
  · rw [List.getElem?_eq_none (by omega), List.getElem?_eq_none (by omega)]

/-- For every place in the garbage there is a terminator that occurs there: the rest of the garbage over and over. -/
theorem early_exists {g : Bytes} {j : Nat} (hj : j < g.length) :
    ∃ t : Bytes, t.length = 16 ∧ Spec.OccursAt t (g ++ t) j := by
  obtain ⟨u, hu⟩ : ∃ u, u = g.drop j := ⟨_, rfl⟩
  have hm : 0 < u.length := by rw [hu, List.length_drop]; omega
  let t : Bytes := (List.range 16).map fun k => u[k % u.length]?.getD 0
  have hlen : t.length = 16 := by simp [t]
  have ht : ∀ k, k < 16 → t[k]? = u[k % u.length]? := by
    intro k hk
    have h1 : k % u.length < u.length := Nat.mod_lt _ hm
    simp only [t, List.getElem?_map, List.getElem?_range hk, Option.map_some, List.getElem?_eq_getElem h1, Option.getD_some]
  refine ⟨t, hlen, g.take j, (u ++ t).drop 16, ?_, by rw [List.length_take]; omega⟩
  have h2 : t = (u ++ t).take 16 := by
    apply List.ext_getElem?
    intro k
    by_cases hk : k < 16
    · rw [List.getElem?_take_of_lt hk]
      by_cases h : k < u.length
      · rw [List.getElem?_append_left h, ht k hk, Nat.mod_eq_of_lt h]
      · rw [List.getElem?_append_right (by omega), ht k hk, ht _ (by omega), Nat.mod_eq_sub_mod (by omega)]
    · rw [List.getElem?_eq_none (by omega), List.getElem?_eq_none (by rw [List.length_take]; omega)]
  calc g ++ t = g.take j ++ (u ++ t) := by rw [← List.append_assoc, hu, List.take_append_drop]
    _ = g.take j ++ ((u ++ t).take 16 ++ (u ++ t).drop 16) := by rw [List.take_append_drop]
    _ = _ := by rw [← h2, List.append_assoc]

/-- C83: of all 2^128 terminators, at most as many as there are bytes of garbage occur in it before their place. -/
theorem C83_early (g : Bytes) [DecidablePred fun t : Fin (2 ^ 128) => ¬ NoEarlyTerminator (leBytes 16 t.val) g] :
    (Finset.univ.filter fun t : Fin (2 ^ 128) => ¬ NoEarlyTerminator (leBytes 16 t.val) g).card ≤ g.length := by
  classical
  have h : ∀ t : Fin (2 ^ 128), t ∈ (Finset.univ.filter fun t : Fin (2 ^ 128) => ¬ NoEarlyTerminator (leBytes 16 t.val) g) →
      ∃ j, j < g.length ∧ Spec.OccursAt (leBytes 16 t.val) (g ++ leBytes 16 t.val) j := by
    intro t ht
    have ht := (Finset.mem_filter.1 ht).2
    by_contra hc
    exact ht fun j hj ho => hc ⟨j, hj, ho⟩
  choose f hf1 hf2 using h
  let F : Fin (2 ^ 128) → Nat := fun t =>
    if ht : t ∈ (Finset.univ.filter fun t : Fin (2 ^ 128) => ¬ NoEarlyTerminator (leBytes 16 t.val) g) then f t ht else 0
  have := Finset.card_le_card_of_injOn (t := Finset.range g.length) F (fun t ht => by
    simp only [F, Finset.mem_coe] at ht ⊢
    rw [dif_pos ht]
    exact Finset.mem_range.2 (hf1 t ht)) (fun t ht u hu he => by
    simp only [F, Finset.mem_coe] at ht hu he
    rw [dif_pos ht, dif_pos hu] at he
    have h1 := hf2 t ht
    rw [he] at h1
    have h2 := early_unique (hf1 u hu) (by simp) h1 (hf2 u hu)
    exact Fin.ext (leBytes_inj (by simp) (by simp) h2))
  simpa using this

/-- C83: only without garbage is there none; so the hypotheses of C16 and C26 on the place of the terminator cannot be dropped. -/
theorem C83_early_none (g : Bytes) : (∀ t : Fin (2 ^ 128), NoEarlyTerminator (leBytes 16 t.val) g) ↔ g = [] := by
  constructor
  · intro h
    by_contra hg
    obtain ⟨t, hl, ht⟩ := early_exists (g := g) (j := 0) (List.length_pos_iff.2 hg)
    have hlt : leNat t < 2 ^ 128 := by
      have := leNat_lt t
      rw [hl] at this
      simpa using this
    have h2 := h ⟨leNat t, hlt⟩ 0 (List.length_pos_iff.2 hg)
    simp only at h2
    rw [← hl, leBytes_leNat] at h2
    exact h2 ht
  · rintro rfl t j hj
    simp at hj

theorem honest_of_usable {magic rngI rngR : Bytes} {gI gR : Option Bytes} {dI dR : Option (List Bytes)}
    (H : UsablePair P prof magic rngI rngR gI gR dI dR) {t : Spec.Terminators}
    (hI : NoEarlyTerminator (leBytes 16 t.1.val) (gI.getD [])) (hR : NoEarlyTerminator (leBytes 16 t.2.val) (gR.getD [])) :
    HonestPair (Spec.withTerminators P t) prof magic rngI rngR gI gR dI dR where
  newI := H.newI
  newR := H.newR
  magicI := H.magicI
  magicR := H.magicR
  garbageI := H.garbageI
  garbageR := H.garbageR
  decoysI := H.decoysI
  decoysR := H.decoysR
  countI := H.countI
  countR := H.countR
  earlyI := by rw [expand_withTerminators, List.take_left' (leBytes_length ..)]; exact hI
  earlyR := by rw [expand_withTerminators, List.drop_left' (leBytes_length ..)]; exact hR

set_option linter.constructorNameAsVariable false in
/-- C83: whatever keys, garbage and decoys two honest parties have, their handshake works for all pairs of terminators but a
fraction of (garbage bytes) / 2^128. -/
theorem C83_handshake (hP : Lawful P) {magic rngI rngR : Bytes} {gI gR : Option Bytes} {dI dR : Option (List Bytes)}
    (H : UsablePair P prof magic rngI rngR gI gR dI dR)
    [DecidablePred fun t : Spec.Terminators => ¬ HandshakeWorks (Spec.withTerminators P t) prof magic rngI rngR gI gR dI dR] :
    (Finset.univ.filter fun t : Spec.Terminators =>
      ¬ HandshakeWorks (Spec.withTerminators P t) prof magic rngI rngR gI gR dI dR).card * 2 ^ 128 ≤
      ((gI.getD []).length + (gR.getD []).length) * Fintype.card Spec.Terminators := by
  classical
  let BI := Finset.univ.filter fun t : Fin (2 ^ 128) => ¬ NoEarlyTerminator (leBytes 16 t.val) (gI.getD [])
  let BR := Finset.univ.filter fun t : Fin (2 ^ 128) => ¬ NoEarlyTerminator (leBytes 16 t.val) (gR.getD [])
  have hsub : (Finset.univ.filter fun t : Spec.Terminators =>
      ¬ HandshakeWorks (Spec.withTerminators P t) prof magic rngI rngR gI gR dI dR) ⊆
      BI ×ˢ Finset.univ ∪ Finset.univ ×ˢ BR := by
    intro t ht
    simp only [Finset.mem_filter, Finset.mem_univ, true_and] at ht
    simp only [Finset.mem_union, Finset.mem_product, Finset.mem_univ, and_true, true_and, BI, BR, Finset.mem_filter]
    by_contra hc
    rw [not_or, not_not, not_not] at hc
    exact ht (C26_end_to_end (withTerminators_lawful hP t) (honest_of_usable H hc.1 hc.2))
  have h1 := Finset.card_le_card hsub
  have h2 := Finset.card_union_le (BI ×ˢ (Finset.univ : Finset (Fin (2 ^ 128)))) ((Finset.univ : Finset (Fin (2 ^ 128))) ×ˢ BR)
  rw [Finset.card_product, Finset.card_product, Finset.card_univ, Fintype.card_fin] at h2
  have hI : BI.card ≤ (gI.getD []).length := C83_early _
  have hR : BR.card ≤ (gR.getD []).length := C83_early _
  rw [Fintype.card_prod, Fintype.card_fin, ← Nat.mul_assoc]
  refine Nat.mul_le_mul_right _ ?_
  calc _ ≤ _ := Nat.le_trans h1 h2
    _ ≤ (gI.getD []).length * 2 ^ 128 + 2 ^ 128 * (gR.getD []).length :=
        Nat.add_le_add (Nat.mul_le_mul_right _ hI) (Nat.mul_le_mul_left _ hR)
    _ = _ := by rw [Nat.add_mul, Nat.mul_comm (2 ^ 128)]

/-- C83: less than one in 2^115, since the garbage is at most 4095 bytes. -/
theorem C83_negligible (hP : Lawful P) {magic rngI rngR : Bytes} {gI gR : Option Bytes} {dI dR : Option (List Bytes)}
    (H : UsablePair P prof magic rngI rngR gI gR dI dR)
    [DecidablePred fun t : Spec.Terminators => ¬ HandshakeWorks (Spec.withTerminators P t) prof magic rngI rngR gI gR dI dR] :
    (Finset.univ.filter fun t : Spec.Terminators =>
      ¬ HandshakeWorks (Spec.withTerminators P t) prof magic rngI rngR gI gR dI dR).card * 2 ^ 115 < Fintype.card Spec.Terminators := by
  have h := C83_handshake hP H
  have h1 := H.garbageI
  have h2 := H.garbageR
  rw [Fintype.card_prod, Fintype.card_fin] at h ⊢
  generalize (Finset.univ.filter fun t : Spec.Terminators =>
      ¬ HandshakeWorks (Spec.withTerminators P t) prof magic rngI rngR gI gR dI dR).card = n at h ⊢
  have h3 : n * 2 ^ 128 ≤ 8190 * (2 ^ 128 * 2 ^ 128) := Nat.le_trans h (Nat.mul_le_mul_right _ (by omega))
  omega

/-- The hypotheses can be met, with garbage. -/
theorem sample_usable : UsablePair toy .debug [1, 2, 3, 4] (leBytes 32 77) (leBytes 32 99) (some [42, 42]) none
    (some [[1, 2, 3], []]) none where
  newI := by decide +kernel
  newR := by decide +kernel
  magicI := by decide +kernel
  magicR := by decide +kernel
  garbageI := by decide +kernel
  garbageR := by decide +kernel
  decoysI := by decide +kernel
  decoysR := by decide +kernel
  countI := by decide +kernel
  countR := by decide +kernel

/-- The terminator of sixteen 42s, and any other for the responder. -/
def unluckyTerminators : Spec.Terminators := (⟨leNat (List.replicate 16 42), by decide +kernel⟩, ⟨5, by decide +kernel⟩)

/-- C83: the chance is not zero. With the terminator that occurs in the garbage [42, 42] the responder stops two bytes early and
takes the initiator for a forger. -/
theorem C83_unlucky : ¬ HandshakeWorks (Spec.withTerminators toy unluckyTerminators) .debug [1, 2, 3, 4] (leBytes 32 77) (leBytes 32 99)
    (some [42, 42]) none (some [[1, 2, 3], []]) none := by
  rintro ⟨iI, iR, oI, oR, -, -, -, h⟩
  have hw := (List.cons_head_tail (l := wireI (Spec.withTerminators toy unluckyTerminators) [1, 2, 3, 4] (leBytes 32 77) (leBytes 32 99)
    (some [42, 42]) (some [[1, 2, 3], []])) (by decide +kernel)).symm
  obtain ⟨w', log, s, h, -⟩ := h syncApi (.inl rfl) ⟨[], [], []⟩
    [.data (wireI (Spec.withTerminators toy unluckyTerminators) [1, 2, 3, 4] (leBytes 32 77) (leBytes 32 99) (some [42, 42]) (some [[1, 2, 3], []]))]
    [] .unexpectedEof [] ⟨by simp, by simp⟩ (.inl ⟨rfl, rfl⟩)
    ⟨[.data _], fun e he => .inr (.inl ⟨_, _, (List.mem_singleton.1 he).trans (congrArg REv.data hw)⟩), rfl, by simp [Source.bytes]⟩
  have h2 := congrArg (fun x => match x.2.2 with | .ok _ => true | _ => false) h
  have h3 : (match (handshake syncApi (Spec.withTerminators toy unluckyTerminators) .debug [1, 2, 3, 4] .responder (leBytes 32 99) none none
      [.data (wireI (Spec.withTerminators toy unluckyTerminators) [1, 2, 3, 4] (leBytes 32 77) (leBytes 32 99) (some [42, 42])
        (some [[1, 2, 3], []]))] ⟨[], [], []⟩).2.2 with | .ok _ => true | _ => false) = false := by decide +kernel
  exact Bool.false_ne_true (h3.symm.trans h2)

/-! ## Keys -/

/-- The strings of `n + m` bytes with a given beginning of `n` bytes. -/
theorem prefix_count {pre : Bytes} {n m N : Nat} (hl : pre.length = n) (hN : N = 256 ^ (n + m)) (p : Fin N → Prop) [DecidablePred p]
    (hp : ∀ k, p k ↔ (leBytes (n + m) k.val).take n = pre) : (Finset.univ.filter p).card = 256 ^ m := by
  subst hN
  have hpos : 0 < 256 ^ n := Nat.pos_of_ne_zero (by simp)
  have hpre : leNat pre < 256 ^ n := by simpa [hl] using leNat_lt pre
  have hrange : ∀ q, q < 256 ^ m → leNat pre + 256 ^ n * q < 256 ^ (n + m) := by
    intro q hq
    rw [Nat.pow_add]
    calc _ < 256 ^ n * (q + 1) := by rw [Nat.mul_add]; omega
      _ ≤ _ := Nat.mul_le_mul_left _ hq
  rw [← Finset.card_range (256 ^ m)]
  symm
  refine Finset.card_bij (fun q hq => ⟨leNat pre + 256 ^ n * q, hrange q (Finset.mem_range.1 hq)⟩) ?_ ?_ ?_
  · intro q hq
    rw [Finset.mem_filter]
    refine ⟨Finset.mem_univ _, (hp _).2 ?_⟩
    rw [leBytes_add, List.take_left' (leBytes_length ..), ← leBytes_mod, Nat.add_mul_mod_self_left, leBytes_mod, ← hl, leBytes_leNat]
  · intro a ha b hb h
    have := Fin.mk.inj h
    have h2 : 256 ^ n * a = 256 ^ n * b := by omega
    exact Nat.eq_of_mul_eq_mul_left hpos h2
  · intro k hk
    have h := (hp k).1 (Finset.mem_filter.1 hk).2
    rw [leBytes_add, List.take_left' (leBytes_length ..)] at h
    have h2 := congrArg leNat h
    rw [leNat_leBytes] at h2
    refine ⟨k.val / 256 ^ n, Finset.mem_range.2 (Nat.div_lt_of_lt_mul (by rw [← Nat.pow_add]; exact k.2)), Fin.ext ?_⟩
    show leNat pre + 256 ^ n * (k.val / 256 ^ n) = k.val
    rw [← h2]
    exact Nat.mod_add_div _ _

/-- C83: of all strings of 64 bytes, exactly one in 2^32 is refused by `receive_key` as V1, whatever the magic of the network is. -/
theorem C83_v1 (hP : Lawful P) (h : HsSentKey) (hm : h.magic.length = 4)
    [DecidablePred fun k : Fin (2 ^ 512) => h.receiveKey P (leBytes 64 k.val) = .err .v1Protocol] :
    (Finset.univ.filter fun k : Fin (2 ^ 512) => h.receiveKey P (leBytes 64 k.val) = .err .v1Protocol).card * 2 ^ 32 =
      Fintype.card (Fin (2 ^ 512)) := by
  have hN : (2 : Nat) ^ 512 = 256 ^ (4 + 60) := by decide +kernel
  rw [prefix_count (n := 4) (m := 60) hm hN _ ?_, Fintype.card_fin, hN]
  · decide +kernel
  intro k
  rcases C19_v1_iff hP h (leBytes 64 k.val) with ⟨h1, h2⟩ | ⟨h1, r, h2, _⟩
  · exact ⟨fun _ => h1, fun _ => h2⟩
  · constructor
    · intro he
      rw [he] at h2
      cases h2
    · exact fun he => absurd he h1

/-- C83: with the 16 bytes of BIP-324 it would be one in 2^128. -/
theorem C83_v1_standard {magic : Bytes} (hm : magic.length = 4)
    [DecidablePred fun k : Fin (2 ^ 512) => Spec.LooksV1 magic (leBytes 64 k.val)] :
    (Finset.univ.filter fun k : Fin (2 ^ 512) => Spec.LooksV1 magic (leBytes 64 k.val)).card * 2 ^ 128 =
      Fintype.card (Fin (2 ^ 512)) := by
  have hN : (2 : Nat) ^ 512 = 256 ^ (16 + 48) := by decide +kernel
  have hl : (Spec.v1Prefix magic).length = 16 := by simp [Spec.v1Prefix, hm]
  rw [prefix_count (n := 16) (m := 48) hl hN _ ?_, Fintype.card_fin, hN]
  · decide +kernel
  intro k
  rw [Spec.LooksV1, List.prefix_iff_eq_take, hl]
  exact eq_comm

/-! ## The hypotheses can be met -/

open Classical in
example : (Finset.univ.filter fun t : Spec.Terminators => ¬ HandshakeWorks (Spec.withTerminators toy t) .debug [1, 2, 3, 4]
    (leBytes 32 77) (leBytes 32 99) (some [42, 42]) none (some [[1, 2, 3], []]) none).card * 2 ^ 115 <
      Fintype.card Spec.Terminators :=
  C83_negligible toy_lawful sample_usable

/-- Some terminator occurs early, and not every one does. -/
example : ¬ NoEarlyTerminator (leBytes 16 unluckyTerminators.1.val) [42, 42] ∧ NoEarlyTerminator (leBytes 16 unluckyTerminators.2.val) [42, 42] := by
  refine ⟨fun h => h 0 (by decide) ⟨[], [42, 42], by decide +kernel, rfl⟩, noEarly_of_head (b := 5) (by decide +kernel) (by decide)⟩

end Bip324
