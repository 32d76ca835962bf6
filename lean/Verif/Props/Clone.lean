import Verif.Model.Clone
import Verif.Props.Packet
import Verif.Props.Schedule
import Verif.Concrete.Instance

/-!
# C77: what copies of a cipher do

The specification counts: each copy of a cipher has taken part in some number of packets.  `Linear` says that
only copies that have taken part in all of them encrypt.
-/

namespace Bip324

variable {P : Prims} {prof : Profile}

/-- Specification: the calls with a large enough buffer, in order, each with the number of packets its cipher has
encrypted before, counting those before it was copied.  `seen` are these numbers for the ciphers of the program. -/
def cloneCalls : List Nat → List CloneOp → List (Nat × (Bytes × Bytes × PacketType × Option Bytes))
  | _, [] => []
  | seen, .clone i :: ops => cloneCalls (seen ++ seen[i]?.toList) ops
  | seen, .encrypt i plaintext buffer ty aad :: ops =>
    match seen[i]? with
    | none => cloneCalls seen ops
    | some n =>
      if buffer.length < plaintext.length + 20 then cloneCalls seen ops
      else (n, (plaintext, buffer, ty, aad)) :: cloneCalls (seen.set i (n + 1)) ops

/-- Specification: a cipher encrypts only if it has taken part in all `total` packets so far. -/
def Linear : List Nat → Nat → List CloneOp → Prop
  | _, _, [] => True
  | seen, total, .clone i :: ops => Linear (seen ++ seen[i]?.toList) total ops
  | seen, total, .encrypt i plaintext buffer _ _ :: ops =>
    match seen[i]? with
    | none => Linear seen total ops
    | some n =>
      if buffer.length < plaintext.length + 20 then Linear seen total ops
      else n = total ∧ Linear (seen.set i (n + 1)) (total + 1) ops

/-- The nonces handed to the AEAD by a program. -/
def cloneNonces (P : Prims) (prof : Profile) : List OutboundCipher → List CloneOp → List Bytes
  | _, [] => []
  | cs, op :: ops =>
    (match op with
      | .clone _ => []
      | .encrypt i plaintext buffer ty aad =>
        match cs[i]? with
        | none => []
        | some c => nonceUses c ⟨plaintext, buffer, ty, aad⟩) ++
      cloneNonces P prof (op.step P prof cs).1 ops

/-! ## Bookkeeping -/

private theorem calls_le (ops : List CloneOp) (seen : List Nat) (b : Nat) (hs : ∀ n ∈ seen, n ≤ b) :
    ∀ x ∈ cloneCalls seen ops, x.1 < b + ops.length := by
  induction ops generalizing seen b with
  | nil => simp [cloneCalls]
  | cons op ops ih =>
    cases op with
    | clone i =>
      intro x hx
      have := ih (seen ++ seen[i]?.toList) b (by
        intro n hn
        rw [List.mem_append, Option.mem_toList] at hn
        rcases hn with hn | hn
        · exact hs n hn
        · exact hs n (List.mem_of_getElem? hn)) x hx
      simp only [List.length_cons]; omega
    | encrypt i pt buf ty aad =>
      intro x hx
      simp only [cloneCalls] at hx
      cases hi : seen[i]? with
      | none =>
        simp only [hi] at hx
        have := ih seen b hs x hx
        simp only [List.length_cons]; omega
      | some n =>
        simp only [hi] at hx
        have hn := hs n (List.mem_of_getElem? hi)
        by_cases hb : buf.length < pt.length + 20
        · rw [if_pos hb] at hx
          have := ih seen b hs x hx
          simp only [List.length_cons]; omega
        · rw [if_neg hb, List.mem_cons] at hx
          rcases hx with rfl | hx
          · simp only [List.length_cons]; omega
          · have := ih (seen.set i (n + 1)) (b + 1) (by
              intro m hm
              rcases List.mem_or_eq_of_mem_set hm with h | h
              · have := hs m h; omega
              · omega) x hx
            simp only [List.length_cons]; omega

private theorem linear_iff (ops : List CloneOp) (seen : List Nat) (total : Nat)
    (hs : ∀ n ∈ seen, n ≤ total) :
    (((cloneCalls seen ops).map Prod.fst).Nodup ∧ ∀ n ∈ (cloneCalls seen ops).map Prod.fst, total ≤ n) ↔
      Linear seen total ops := by
  induction ops generalizing seen total with
  | nil => simp [cloneCalls, Linear]
  | cons op ops ih =>
    cases op with
    | clone i =>
      exact ih (seen ++ seen[i]?.toList) total (by
        intro n hn
        rw [List.mem_append, Option.mem_toList] at hn
        rcases hn with hn | hn
        · exact hs n hn
        · exact hs n (List.mem_of_getElem? hn))
    | encrypt i pt buf ty aad =>
      simp only [cloneCalls, Linear]
      cases hi : seen[i]? with
      | none => exact ih seen total hs
      | some n =>
        have hn := hs n (List.mem_of_getElem? hi)
        by_cases hb : buf.length < pt.length + 20
        · simp only [if_pos hb]; exact ih seen total hs
        · simp only [if_neg hb]
          rw [← ih (seen.set i (n + 1)) (total + 1) (by
            intro m hm
            rcases List.mem_or_eq_of_mem_set hm with h | h
            · have := hs m h; omega
            · omega)]
          simp only [List.map_cons, List.nodup_cons, List.mem_cons, forall_eq_or_imp]
          constructor
          · rintro ⟨⟨h1, h2⟩, h3, h4⟩
            have hnt : n = total := by omega
            refine ⟨hnt, h2, ?_⟩
            intro m hm
            have h5 := h4 m hm
            by_cases he : m = total
            · subst he; subst hnt; exact absurd hm h1
            · omega
          · rintro ⟨rfl, h2, h3⟩
            refine ⟨⟨?_, h2⟩, by omega, ?_⟩
            · intro hm
              have := h3 n hm; omega
            · intro m hm
              have := h3 m hm; omega

private theorem linear_range (ops : List CloneOp) (seen : List Nat) (total : Nat)
    (h : Linear seen total ops) :
    (cloneCalls seen ops).map Prod.fst = List.range' total (cloneCalls seen ops).length := by
  induction ops generalizing seen total with
  | nil => simp [cloneCalls]
  | cons op ops ih =>
    cases op with
    | clone i => exact ih _ _ h
    | encrypt i pt buf ty aad =>
      simp only [cloneCalls, Linear] at h ⊢
      cases hi : seen[i]? with
      | none => simp only [hi] at h ⊢; exact ih _ _ h
      | some n =>
        simp only [hi] at h ⊢
        by_cases hb : buf.length < pt.length + 20
        · rw [if_pos hb] at h ⊢; exact ih _ _ h
        · rw [if_neg hb] at h ⊢
          obtain ⟨rfl, h⟩ := h
          simp only [List.map_cons, List.length_cons, List.range'_succ, List.cons.injEq, true_and]
          exact ih _ _ h

/-- Element by element. -/
private inductive Both {α β} (R : α → β → Prop) : List α → List β → Prop
  | nil : Both R [] []
  | cons {a b as bs} : R a b → Both R as bs → Both R (a :: as) (b :: bs)

/-- The ciphers of a program stand where the counting says. -/
private def Stand (P : Prims) (kL kP : Bytes) (seen : List Nat) (cs : List OutboundCipher) : Prop :=
  Both (fun n c => OutboundCipher.At P kL kP n c) seen cs

private theorem forall2_get {α β} {R : α → β → Prop} {as : List α} {bs : List β}
    (h : Both R as bs) (i : Nat) :
    (as[i]? = none ∧ bs[i]? = none) ∨ ∃ a b, as[i]? = some a ∧ bs[i]? = some b ∧ R a b := by
  induction h generalizing i with
  | nil => simp
  | cons h1 h2 ih =>
    cases i with
    | zero => exact .inr ⟨_, _, rfl, rfl, h1⟩
    | succ i => simpa using ih i

private theorem forall2_set {α β} {R : α → β → Prop} {as : List α} {bs : List β}
    (h : Both R as bs) (i : Nat) {a : α} {b : β} (hab : R a b) :
    Both R (as.set i a) (bs.set i b) := by
  induction h generalizing i with
  | nil => exact .nil
  | cons h1 h2 ih =>
    cases i with
    | zero => exact .cons hab h2
    | succ i => exact .cons h1 (ih i)

private theorem forall2_snoc {α β} {R : α → β → Prop} {as : List α} {bs : List β}
    (h : Both R as bs) {a : α} {b : β} (hab : R a b) :
    Both R (as ++ [a]) (bs ++ [b]) := by
  induction h with
  | nil => exact .cons hab .nil
  | cons h1 h2 ih => exact .cons h1 ih

private theorem encrypt_at (hP : Lawful P) {kL kP : Bytes} {n : Nat} {o : OutboundCipher}
    (h : OutboundCipher.At P kL kP n o) (hn : n + 1 < 2 ^ 32) (pt buf : Bytes) (ty : PacketType)
    (aad : Option Bytes) (hb : pt.length + 20 ≤ buf.length) :
    ∃ o', OutboundCipher.At P kL kP (n + 1) o' ∧
      o.encrypt P prof pt buf ty aad =
        (o', Spec.packet P kL kP n (ty == .decoy) (aad.getD []) pt ++ buf.drop (pt.length + 20), .ok ()) := by
  obtain ⟨pc, hpc, he⟩ := h.2.encrypt (prof := prof) hP (by omega) (aad.getD []) (ty.toByte :: pt)
  obtain ⟨lc, hlc, hl⟩ := h.1.crypt (prof := prof) hn (leBytes 3 (pt.length % u32Mod)) (by simp)
  refine ⟨⟨lc, pc⟩, ⟨hlc, hpc⟩, ?_⟩
  rw [OutboundCipher.encrypt_eq hP o pt buf ty aad hb he hl]
  simp only [Spec.packet, leBytes3_u32, ← spec_xor, ← toByte_spec, Spec.interval]

private theorem small_step (c : OutboundCipher) (pt buf : Bytes) (ty : PacketType) (aad : Option Bytes)
    (hb : buf.length < pt.length + 20) :
    c.encrypt P prof pt buf ty aad = (c, buf, .err (.bufferTooSmall (pt.length + 20))) := by
  unfold OutboundCipher.encrypt
  rw [if_pos (by exact hb)]
  rfl

private theorem sent_eq (hP : Lawful P) {kL kP : Bytes} (ops : List CloneOp) (seen : List Nat)
    (cs : List OutboundCipher) (hst : Stand P kL kP seen cs) (b : Nat) (hs : ∀ n ∈ seen, n ≤ b)
    (hlen : b + ops.length < 2 ^ 32) :
    CloneOp.sent P prof cs ops = (cloneCalls seen ops).map fun x =>
      (x.2, Spec.packet P kL kP x.1 (x.2.2.2.1 == .decoy) (x.2.2.2.2.getD []) x.2.1
        ++ x.2.2.1.drop (x.2.1.length + 20)) := by
  induction ops generalizing seen cs b with
  | nil => rfl
  | cons op ops ih =>
    simp only [List.length_cons] at hlen
    cases op with
    | clone i =>
      simp only [CloneOp.sent, CloneOp.step, cloneCalls]
      rcases forall2_get hst i with ⟨h1, h2⟩ | ⟨n, c, h1, h2, h3⟩
      · simp only [h1, h2, Option.toList_none, List.append_nil, List.nil_append]
        exact ih seen cs hst b hs (by omega)
      · simp only [h1, h2, Option.toList_some, List.nil_append]
        refine ih _ _ (forall2_snoc hst h3) b ?_ (by omega)
        intro m hm
        rw [List.mem_append, List.mem_singleton] at hm
        rcases hm with hm | rfl
        · exact hs m hm
        · exact hs _ (List.mem_of_getElem? h1)
    | encrypt i pt buf ty aad =>
      simp only [CloneOp.sent, CloneOp.step, cloneCalls]
      rcases forall2_get hst i with ⟨h1, h2⟩ | ⟨n, c, h1, h2, h3⟩
      · simp only [h1, h2, List.nil_append]
        exact ih seen cs hst b hs (by omega)
      · simp only [h1, h2]
        have hn := hs n (List.mem_of_getElem? h1)
        by_cases hb : buf.length < pt.length + 20
        · simp only [if_pos hb, small_step c pt buf ty aad hb, List.nil_append]
          have hset : cs.set i c = cs := by
            obtain ⟨hlt, he⟩ := List.getElem?_eq_some_iff.mp h2
            rw [← he]; exact List.set_getElem_self hlt
          rw [hset]
          exact ih seen cs hst b hs (by omega)
        · obtain ⟨o', ho', he⟩ := encrypt_at (prof := prof) hP h3 (by omega) pt buf ty aad (by omega)
          simp only [if_neg hb, he, List.map_cons, List.cons_append, List.nil_append, List.cons.injEq,
            true_and]
          refine ih _ _ (forall2_set hst i ho') (b + 1) ?_ (by omega)
          intro m hm
          rcases List.mem_or_eq_of_mem_set hm with h | h
          · have := hs m h; omega
          · omega

/-! ## The theorems -/

/-- C77: whatever is copied and whichever copies encrypt, a call yields the BIP-324 packet whose number is the
number of packets that its own cipher, not the connection, has encrypted. -/
theorem C77_outputs (hP : Lawful P) (kL kP : Bytes) (ops : List CloneOp) (h : ops.length < 2 ^ 32) :
    CloneOp.sent P prof [⟨FSStream.new kL, FSAead.new kP⟩] ops = (cloneCalls [0] ops).map fun x =>
      (x.2, Spec.packet P kL kP x.1 (x.2.2.2.1 == .decoy) (x.2.2.2.2.getD []) x.2.1
        ++ x.2.2.1.drop (x.2.1.length + 20)) :=
  sent_eq hP ops [0] _ (Both.cons ⟨FSStream.at_new kL, FSAead.at_new kP⟩ .nil) 0 (by simp) (by omega)

/-- C77: no packet number is used twice exactly if only copies that took part in all packets encrypt. -/
theorem C77_numbers_iff (ops : List CloneOp) :
    ((cloneCalls [0] ops).map Prod.fst).Nodup ↔ Linear [0] 0 ops := by
  rw [← linear_iff ops [0] 0 (by simp)]
  simp

/-- C77: such a program sends the packets of one cipher, one after the other: the copies do not show. -/
theorem C77_linear (hP : Lawful P) (kL kP : Bytes) (ops : List CloneOp) (h : ops.length < 2 ^ 32)
    (hlin : Linear [0] 0 ops) :
    (CloneOp.sent P prof [⟨FSStream.new kL, FSAead.new kP⟩] ops).map
        (fun x => x.2.take (x.1.1.length + 20)) =
      ((cloneCalls [0] ops).map Prod.snd).mapIdx fun n x =>
        Spec.packet P kL kP n (x.2.2.1 == .decoy) (x.2.2.2.getD []) x.1 := by
  have hlen : ∀ n ty (a p : Bytes), (Spec.packet P kL kP n ty a p).length = p.length + 20 := by
    intro n ty a p
    simp only [Spec.packet, List.length_append, hP.seal_length, hP.tag_length, Spec.xor,
      List.length_zipWith, Spec.lengthMask, Spec.le, List.length_map, List.length_range, List.length_cons]
    omega
  rw [C77_outputs hP kL kP ops h, List.map_map]
  have hr := linear_range ops [0] 0 hlin
  generalize cloneCalls [0] ops = l at hr
  apply List.ext_getElem
  · simp
  · intro i h1 h2
    simp only [List.length_map] at h1
    have hi : l[i].1 = i := by
      have h3 : (l.map Prod.fst)[i]'(by simpa using h1) = (List.range' 0 l.length)[i]'(by simpa using h1) := by
        simp only [hr]
      simpa using h3
    simp only [List.getElem_map, Function.comp_apply, List.getElem_mapIdx, hi]
    rw [← hlen i (l[i].2.2.2.1 == .decoy) (l[i].2.2.2.2.getD []) l[i].2.1, List.take_left]

/-- The xor of two encryptions with the same keystream is the xor of the plaintexts. -/
private theorem xor_same_keystream (a b k k' : Bytes) (ha : a.length ≤ k.length) (hb : b.length ≤ k'.length)
    (hk : ∀ i (h : i < k.length) (h' : i < k'.length), k[i] = k'[i]) :
    xorBytes (xorBytes a k) (xorBytes b k') = xorBytes a b := by
  unfold xorBytes
  apply List.ext_getElem
  · simp only [List.length_zipWith]; omega
  · intro i h1 h2
    simp only [List.length_zipWith] at h1 h2
    simp only [List.getElem_zipWith]
    rw [hk i (by omega) (by omega)]
    generalize a[i] = x
    generalize b[i] = y
    generalize k'[i]'(by omega) = z
    rw [UInt8.xor_comm y z, UInt8.xor_assoc, ← UInt8.xor_assoc z z y, UInt8.xor_self, UInt8.zero_xor]

/-- With the functions of RFC 8439, two packets with the same number show the xor of their contents and of their
lengths. -/
private theorem packet_xor (C : Concrete.Curve) (kL kP : Bytes) (n : Nat) (d d' : Bool) (a a' p p' : Bytes) :
    let w := Spec.packet (Concrete.rfc C) kL kP n d a p
    let w' := Spec.packet (Concrete.rfc C) kL kP n d' a' p'
    xorBytes (w.take 3) (w'.take 3) = xorBytes (Spec.le 3 p.length) (Spec.le 3 p'.length) ∧
    xorBytes (slice w 3 (p.length + 1)) (slice w' 3 (p'.length + 1))
      = xorBytes ((if d then 0x80 else 0) :: p) ((if d' then 0x80 else 0) :: p') := by
  have hx : ∀ m : Nat, (Spec.xor (Spec.le 3 m) (Spec.lengthMask (Concrete.rfc C) kL n)).length = 3 := by
    intro m; simp [Spec.xor, Spec.le, Spec.lengthMask]
  have hc : ∀ (k nn a x : Bytes), ((Concrete.rfc C).sealC k nn a x).1 = Concrete.chacha20 k nn 1 x :=
    fun _ _ _ _ => rfl
  refine ⟨?_, ?_⟩
  · simp only [Spec.packet]
    rw [List.append_assoc, List.append_assoc, take_append_len _ _ (hx _).symm, take_append_len _ _ (hx _).symm]
    simp only [spec_xor]
    apply xor_same_keystream
    · simp [Spec.le, Spec.lengthMask]
    · simp [Spec.le, Spec.lengthMask]
    · intros; rfl
  · simp only [Spec.packet, slice]
    rw [List.append_assoc, List.append_assoc, drop_append_len _ _ (hx _).symm, drop_append_len _ _ (hx _).symm]
    simp only [hc]
    rw [take_append_len _ _ (by simp [Concrete.chacha20_length]),
      take_append_len _ _ (by simp [Concrete.chacha20_length])]
    unfold Concrete.chacha20
    apply xor_same_keystream
    · rw [Concrete.keystreamBlocks_length]; omega
    · rw [Concrete.keystreamBlocks_length]; omega
    · intro i h1 h2
      rw [Concrete.keystreamBlocks_length] at h1 h2
      rw [Concrete.keystreamBlocks_getElem _ _ _ _ _ h1, Concrete.keystreamBlocks_getElem _ _ _ _ _ h2]

private theorem not_nodup {l : List Nat} (h : ¬ l.Nodup) :
    ∃ j k, ∃ (hj : j < l.length) (hk : k < l.length), j < k ∧ l[j] = l[k] := by
  rw [List.nodup_iff_pairwise_ne, List.pairwise_iff_getElem] at h
  grind

/-- C77: in every other program two packets are sent under the same keys and nonces; whoever sees them computes,
without any key, the xor of their lengths and the xor of their headers and contents, as far as the shorter one
reaches.  (With the functions of RFC 8439, over any key exchange.) -/
theorem C77_copies_leak {C : Concrete.Curve} (hC : C.Lawful) (kL kP : Bytes) (ops : List CloneOp)
    (h : ops.length < 2 ^ 32) (hlin : ¬ Linear [0] 0 ops) :
    ∃ j k : Nat, j < k ∧ ∃ (pt buf : Bytes) (ty : PacketType) (aad : Option Bytes) (out : Bytes)
      (pt' buf' : Bytes) (ty' : PacketType) (aad' : Option Bytes) (out' : Bytes),
      (CloneOp.sent (Concrete.rfc C) prof [⟨FSStream.new kL, FSAead.new kP⟩] ops)[j]?
        = some ((pt, buf, ty, aad), out) ∧
      (CloneOp.sent (Concrete.rfc C) prof [⟨FSStream.new kL, FSAead.new kP⟩] ops)[k]?
        = some ((pt', buf', ty', aad'), out') ∧
      xorBytes (out.take 3) (out'.take 3) = xorBytes (Spec.le 3 pt.length) (Spec.le 3 pt'.length) ∧
      xorBytes (slice out 3 (pt.length + 1)) (slice out' 3 (pt'.length + 1))
        = xorBytes (ty.toByte :: pt) (ty'.toByte :: pt') := by
  have hP := Concrete.rfc_lawful hC
  rw [← C77_numbers_iff] at hlin
  obtain ⟨j, k, hj, hk, hjk, he⟩ := not_nodup hlin
  simp only [List.length_map] at hj hk
  simp only [List.getElem_map] at he
  rw [C77_outputs hP kL kP ops h]
  refine ⟨j, k, hjk, ?_⟩
  generalize hl : cloneCalls [0] ops = l
  simp only [hl] at hj hk he
  obtain ⟨⟨n, pt, buf, ty, aad⟩, hx⟩ : ∃ x, l[j] = x := ⟨_, rfl⟩
  obtain ⟨⟨n', pt', buf', ty', aad'⟩, hx'⟩ : ∃ x, l[k] = x := ⟨_, rfl⟩
  rw [hx, hx'] at he
  simp only at he
  subst he
  refine ⟨pt, buf, ty, aad,
    Spec.packet (Concrete.rfc C) kL kP n (ty == .decoy) (aad.getD []) pt ++ buf.drop (pt.length + 20),
    pt', buf', ty', aad',
    Spec.packet (Concrete.rfc C) kL kP n (ty' == .decoy) (aad'.getD []) pt' ++ buf'.drop (pt'.length + 20),
    ?_, ?_, ?_⟩
  · rw [List.getElem?_map, List.getElem?_eq_getElem hj, hx]; rfl
  · rw [List.getElem?_map, List.getElem?_eq_getElem hk, hx']; rfl
  · have hlen : ∀ ty (a p : Bytes), (Spec.packet (Concrete.rfc C) kL kP n ty a p).length = p.length + 20 := by
      intro ty a p
      simp only [Spec.packet, List.length_append, hP.seal_length, hP.tag_length, Spec.xor,
        List.length_zipWith, Spec.lengthMask, Spec.le, List.length_map, List.length_range, List.length_cons]
      omega
    have hp := packet_xor C kL kP n (ty == .decoy) (ty' == .decoy) (aad.getD []) (aad'.getD []) pt pt'
    simp only at hp
    rw [← toByte_spec, ← toByte_spec] at hp
    have e1 : ∀ (w r : Bytes), 3 ≤ w.length → (w ++ r).take 3 = w.take 3 := by
      intro w r hw; rw [List.take_append_of_le_length hw]
    have e2 : ∀ (w r p : Bytes), w.length = p.length + 20 → slice (w ++ r) 3 (p.length + 1)
        = slice w 3 (p.length + 1) := by
      intro w r p hw
      unfold slice
      rw [List.drop_append_of_le_length (by omega), List.take_append_of_le_length (by simp; omega)]
    rw [e1 _ _ (by rw [hlen]; omega), e1 _ _ (by rw [hlen]; omega), e2 _ _ _ (hlen ..), e2 _ _ _ (hlen ..)]
    exact hp

/-! ## The nonces -/

private def usesOf (n : Nat) : List Bytes :=
  if (n + 1) % 224 = 0 then [(FSAead.mk [] n).nonce, (FSAead.mk [] n).rekeyNonce] else [(FSAead.mk [] n).nonce]

private theorem nonceUses_eq (c : OutboundCipher) (call : EncCall)
    (hb : ¬ call.buffer.length < call.plaintext.length + 20) :
    nonceUses c call = usesOf c.packetCipher.messageCounter := by
  unfold nonceUses usesOf
  rw [if_neg hb]
  rfl

private theorem usesOf_rank {n : Nat} (h : n < 2 ^ 64) {x : Bytes} (hx : x ∈ usesOf n) :
    nonceRank x = n / 224 * 4294967296 + n % 224 ∨
      ((n + 1) % 224 = 0 ∧ nonceRank x = n / 224 * 4294967296 + 4294967295) := by
  unfold usesOf at hx
  split at hx
  · rename_i h0
    simp only [List.mem_cons, List.not_mem_nil, or_false] at hx
    rcases hx with rfl | rfl
    · exact .inl (rank_nonce ⟨[], n⟩ h)
    · exact .inr ⟨h0, rank_rekeyNonce ⟨[], n⟩ h⟩
  · simp only [List.mem_cons, List.not_mem_nil, or_false] at hx
    subst hx
    exact .inl (rank_nonce ⟨[], n⟩ h)

private theorem usesOf_disjoint {n m : Nat} (hn : n < 2 ^ 64) (hm : m < 2 ^ 64) {x : Bytes}
    (h1 : x ∈ usesOf n) (h2 : x ∈ usesOf m) : n = m := by
  rcases usesOf_rank hn h1 with a | ⟨a0, a⟩ <;> rcases usesOf_rank hm h2 with b | ⟨b0, b⟩ <;> omega

private theorem usesOf_nodup {n : Nat} (h : n < 2 ^ 64) : (usesOf n).Nodup := by
  unfold usesOf
  split
  · simp only [List.nodup_cons, List.mem_cons, List.not_mem_nil, or_false, not_false_eq_true,
      List.nodup_nil, and_true]
    intro he
    have h1 := rank_nonce ⟨[], n⟩ h
    have h2 := rank_rekeyNonce ⟨[], n⟩ h
    rw [he, h2] at h1
    simp only at h1
    omega
  · simp

private theorem usesOf_head (n : Nat) : (FSAead.mk [] n).nonce ∈ usesOf n := by
  unfold usesOf; split <;> simp

private theorem flatMap_nodup (l : List Nat) (h : ∀ n ∈ l, n < 2 ^ 64) :
    (l.flatMap usesOf).Nodup ↔ l.Nodup := by
  induction l with
  | nil => simp
  | cons n l ih =>
    have hn := h n (by simp)
    have hl : ∀ m ∈ l, m < 2 ^ 64 := fun m hm => h m (by simp [hm])
    rw [List.flatMap_cons, List.nodup_append, List.nodup_cons, ih hl]
    constructor
    · rintro ⟨-, h2, h3⟩
      refine ⟨fun hm => ?_, h2⟩
      exact h3 _ (usesOf_head n) _ (List.mem_flatMap.mpr ⟨n, hm, usesOf_head n⟩) rfl
    · rintro ⟨h1, h2⟩
      refine ⟨usesOf_nodup hn, h2, ?_⟩
      rintro a ha b hb rfl
      obtain ⟨m, hm, hx⟩ := List.mem_flatMap.mp hb
      have := usesOf_disjoint hn (hl m hm) ha hx
      subst this
      exact h1 hm

private theorem nonces_eq (ops : List CloneOp) (seen : List Nat) (cs : List OutboundCipher)
    (hst : Both (fun n c => c.packetCipher.messageCounter = n) seen cs) (b : Nat) (hs : ∀ n ∈ seen, n ≤ b)
    (hlen : b + ops.length < 2 ^ 64) :
    cloneNonces P prof cs ops = ((cloneCalls seen ops).map Prod.fst).flatMap usesOf := by
  induction ops generalizing seen cs b with
  | nil => rfl
  | cons op ops ih =>
    simp only [List.length_cons] at hlen
    cases op with
    | clone i =>
      simp only [cloneNonces, CloneOp.step, cloneCalls]
      rcases forall2_get hst i with ⟨h1, h2⟩ | ⟨n, c, h1, h2, h3⟩
      · simp only [h1, h2, Option.toList_none, List.append_nil, List.nil_append]
        exact ih seen cs hst b hs (by omega)
      · simp only [h1, h2, Option.toList_some, List.nil_append]
        refine ih _ _ (forall2_snoc hst h3) b ?_ (by omega)
        intro m hm
        rw [List.mem_append, List.mem_singleton] at hm
        rcases hm with hm | rfl
        · exact hs m hm
        · exact hs _ (List.mem_of_getElem? h1)
    | encrypt i pt buf ty aad =>
      simp only [cloneNonces, CloneOp.step, cloneCalls]
      rcases forall2_get hst i with ⟨h1, h2⟩ | ⟨n, c, h1, h2, h3⟩
      · simp only [h1, h2, List.nil_append]
        exact ih seen cs hst b hs (by omega)
      · simp only [h1, h2]
        have hn := hs n (List.mem_of_getElem? h1)
        have hcs := counter_step (P := P) (prof := prof) c ⟨pt, buf, ty, aad⟩ (by omega)
        simp only at hcs
        by_cases hb : buf.length < pt.length + 20
        · have hu : nonceUses c ⟨pt, buf, ty, aad⟩ = [] := by unfold nonceUses; rw [if_pos hb]
          simp only [if_pos hb, hu, List.nil_append, small_step c pt buf ty aad hb]
          have hset : cs.set i c = cs := by
            obtain ⟨hlt, he⟩ := List.getElem?_eq_some_iff.mp h2
            rw [← he]; exact List.set_getElem_self hlt
          rw [hset]
          exact ih seen cs hst b hs (by omega)
        · rw [if_neg hb] at hcs
          rw [nonceUses_eq c ⟨pt, buf, ty, aad⟩ hb, h3]
          simp only [if_neg hb, List.map_cons, List.flatMap_cons, List.append_cancel_left_eq]
          refine ih _ _ (forall2_set hst i (by rw [hcs, h3])) (b + 1) ?_ (by omega)
          intro m hm
          rcases List.mem_or_eq_of_mem_set hm with h | h
          · have := hs m h; omega
          · omega

/-- C77: a program never hands a nonce to the AEAD twice exactly if only copies that took part in all packets
encrypt; failed and panicking calls included. -/
theorem C77_nonces_iff (kL kP : Bytes) (ops : List CloneOp) (h : ops.length < 2 ^ 64) :
    (cloneNonces P prof [⟨FSStream.new kL, FSAead.new kP⟩] ops).Nodup ↔ Linear [0] 0 ops := by
  rw [nonces_eq ops [0] _ (Both.cons rfl .nil) 0 (by simp) (by omega), flatMap_nodup, C77_numbers_iff]
  intro n hn
  obtain ⟨x, hx, rfl⟩ := List.mem_map.mp hn
  have := calls_le ops [0] 0 (by simp) x hx
  omega

/-- C77, the negation of "no sequence of calls of the API uses a nonce twice": one copy and one call on each
cipher are enough, whatever they encrypt. -/
theorem C77_reuse_counterexample (kL kP pt pt' : Bytes) (ty ty' : PacketType) (aad aad' : Option Bytes) :
    ¬ (cloneNonces P prof [⟨FSStream.new kL, FSAead.new kP⟩]
      [.clone 0, .encrypt 0 pt (zeros (pt.length + 20)) ty aad,
        .encrypt 1 pt' (zeros (pt'.length + 20)) ty' aad']).Nodup := by
  rw [C77_nonces_iff kL kP _ (by simp)]
  simp [Linear]

/-- C77: and then whoever knows one of the two messages and sees the packets reads the other, as far as the known
one reaches. -/
theorem C77_known_plaintext {C : Concrete.Curve} (hC : C.Lawful) (kL kP pt pt' : Bytes)
    (ty ty' : PacketType) (aad aad' : Option Bytes) :
    ∃ out out', CloneOp.sent (Concrete.rfc C) prof [⟨FSStream.new kL, FSAead.new kP⟩]
        [.clone 0, .encrypt 0 pt (zeros (pt.length + 20)) ty aad,
          .encrypt 1 pt' (zeros (pt'.length + 20)) ty' aad']
      = [((pt, zeros (pt.length + 20), ty, aad), out), ((pt', zeros (pt'.length + 20), ty', aad'), out')] ∧
      xorBytes (xorBytes (slice out' 3 (pt'.length + 1)) (slice out 3 (pt.length + 1))) (ty.toByte :: pt)
        = (ty'.toByte :: pt').take (pt.length + 1) := by
  have hP := Concrete.rfc_lawful hC
  rw [C77_outputs hP kL kP _ (by simp)]
  simp only [cloneCalls, List.getElem?_cons_zero, Option.toList_some, List.cons_append, List.nil_append,
    zeros_length, Nat.lt_irrefl, if_false, List.set_cons_zero, List.getElem?_cons_succ, List.map_cons,
    List.map_nil]
  have hz : ∀ n : Nat, (zeros n).drop n = [] := by intro n; simp [zeros]
  simp only [hz, List.append_nil]
  refine ⟨_, _, rfl, ?_⟩
  have hp := (packet_xor C kL kP 0 (ty' == .decoy) (ty == .decoy) (aad'.getD []) (aad.getD []) pt' pt).2
  rw [← toByte_spec, ← toByte_spec] at hp
  rw [hp]
  have hx : ∀ a b : Bytes, xorBytes (xorBytes a b) b = a.take b.length := by
    intro a
    induction a with
    | nil => intro b; simp [xorBytes]
    | cons x a ih =>
      intro b
      cases b with
      | nil => simp [xorBytes]
      | cons y b =>
        have : xorBytes (xorBytes (x :: a) (y :: b)) (y :: b) = (x ^^^ y ^^^ y) :: xorBytes (xorBytes a b) b := rfl
        rw [this, ih, u8_xor_cancel]; rfl
  rw [hx]
  simp

/-- C77: a copy of the receiving cipher made before a packet accepts that packet again after the original has
accepted it: what a receiver rejects as a replay its copy delivers. -/
theorem C77_replay (hP : Lawful P) {o o' : OutboundCipher} {i : InboundCipher} (hm : Matching o i)
    (contents : Bytes) (hlen : contents.length < 2 ^ 24) (ty : PacketType) (aad : Option Bytes) {w : Bytes}
    (he : o.encryptToVec P prof contents ty aad = (o', .ok w)) :
    ∃ i1 i2 buf, i.decryptPacketLen P prof (w.take 3) = (i1, .ok (w.drop 3).length) ∧
      i1.decryptInPlace P prof (w.drop 3) aad = (i2, buf, .ok (ty, ty.toByte :: contents)) ∧
      Matching o' i2 ∧ i2.packetCipher.messageCounter ≠ i.packetCipher.messageCounter ∧
      (∀ copy : InboundCipher, copy = i → ∃ c1 c2,
        copy.decryptPacketLen P prof (w.take 3) = (c1, .ok (w.drop 3).length) ∧
        c1.decryptInPlace P prof (w.drop 3) aad = (c2, buf, .ok (ty, ty.toByte :: contents))) := by
  obtain ⟨i1, i2, hm2, h1, ⟨buf, h2⟩, -⟩ := C01_packet_round_trip hP hm contents hlen ty aad he
  refine ⟨i1, i2, buf, h1, h2, hm2, ?_, ?_⟩
  · obtain ⟨pc, ct, tag, lc, encLen, he', -, rfl, -⟩ := OutboundCipher.encryptToVec_ok_inv hP o contents ty aad he
    rw [hm2.2, hm.2]
    rw [FSAead.encrypt_some] at he'
    unfold FSAead.rekey at he'
    cases hu : uadd prof u64Mod o.packetCipher.messageCounter 1 with
    | none => simp [hu] at he'
    | some n =>
      simp only [hu, Option.map_some, Option.some.injEq, Prod.mk.injEq] at he'
      rw [← he'.1]
      simp only [uadd] at hu
      simp only
      intro hne
      subst hne
      split at hu <;> simp [u64Mod] at hu <;> omega
  · rintro copy rfl
    exact ⟨i1, i2, h1, h2⟩

/-- Non-vacuity: a program that copies and goes on with the copy only is `Linear` and sends two packets; going
on with both is not. -/
example : Linear [0] 0 [.encrypt 0 [1] (zeros 21) .genuine none, .clone 0,
      .encrypt 1 [2, 3] (zeros 30) .decoy none, .encrypt 0 [1] (zeros 20) .genuine none] ∧
    ((CloneOp.sent toy .debug [⟨FSStream.new (zeros 32), FSAead.new (zeros 32)⟩]
      [.encrypt 0 [1] (zeros 21) .genuine none, .clone 0,
        .encrypt 1 [2, 3] (zeros 30) .decoy none, .encrypt 0 [1] (zeros 20) .genuine none]).length = 2) ∧
    ¬ Linear [0] 0 [.encrypt 0 [1] (zeros 21) .genuine none, .clone 0,
      .encrypt 1 [2, 3] (zeros 30) .decoy none, .encrypt 0 [1] (zeros 21) .genuine none] := by
  refine ⟨by simp [Linear], by decide +kernel, by simp [Linear]⟩

/-- Non-vacuity of the key exchange hypothesis is `rfc_lawful`'s: any agreeing exchange, for example a constant. -/
example : ∃ C : Concrete.Curve, C.Lawful :=
  ⟨⟨fun _ => true, fun _ => zeros 64, fun _ _ _ _ _ => []⟩, ⟨fun _ => by simp, fun _ _ _ _ _ => rfl⟩⟩

end Bip324
