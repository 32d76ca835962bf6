import Verif.Spec.Secrecy
import Verif.Props.Stream

/-!
# C74: what the wire and a stolen state tell about the packets

The packets on the wire, and the state of a cipher at any moment, tell an attacker who does not use the key of a packet
nothing about its contents and type but the length.  The state of a cipher depends on the past through the key of the
current epoch only, and not on any contents; it opens the packets of its own epoch, up to 223 earlier ones, and all that
follow.
-/

namespace Bip324

variable {P : Prims} {prof : Profile}

/-! ## Other primitives with the same wire -/

/-- The primitives with the plaintexts of the packet cipher renamed. -/
def Prims.rename (P : Prims) (σ : Bytes → Bytes → Bytes → Bytes) : Prims :=
  { P with
    sealC := fun k n a c => P.sealC k n a (σ k n c)
    openC := fun k n a c t => (P.openC k n a c t).map (σ k n) }

theorem rename_lawful (hP : Lawful P) {σ : Bytes → Bytes → Bytes → Bytes} (hlen : ∀ k n c, (σ k n c).length = c.length)
    (hinv : ∀ k n c, σ k n (σ k n c) = c) : Lawful (P.rename σ) where
  seal_length k n a c := by
    show (P.sealC k n a (σ k n c)).1.length = c.length
    rw [hP.seal_length, hlen]
  tag_length k n a c := hP.tag_length k n a _
  open_iff k n a c t p := by
    show (P.openC k n a c t).map (σ k n) = some p ↔ P.sealC k n a (σ k n p) = (c, t)
    rw [← hP.open_iff, Option.map_eq_some_iff]
    constructor
    · rintro ⟨q, hq, rfl⟩
      rw [hinv]
      exact hq
    · intro h
      exact ⟨_, h, hinv k n p⟩
  seal_aad k n a a' c := hP.seal_aad k n a a' _
  ellswift_length := hP.ellswift_length
  ecdh_agree := hP.ecdh_agree
  hkdf_ok := hP.hkdf_ok

theorem packetNonce_inj {i j : Nat} (hi : i < 2 ^ 32) (hj : j < 2 ^ 32) (h : Spec.packetNonce i = Spec.packetNonce j) :
    i = j := by
  simp only [Spec.packetNonce, spec_le, Spec.interval] at h
  obtain ⟨h1, h2⟩ := List.append_inj h (by rw [leBytes_length, leBytes_length])
  have e1 := leBytes_inj (by omega) (by omega) h1
  have e2 := leBytes_inj (by omega) (by omega) h2
  omega

theorem rekeyNonce_ne (e i : Nat) : Spec.rekeyNonce e ≠ Spec.packetNonce i := by
  intro h
  have h1 : (Spec.rekeyNonce e)[0]? = (Spec.packetNonce i)[0]? := by rw [h]
  have h2 : (255 : UInt8) = UInt8.ofNat (i % 224 / 256 ^ 0 % 256) := Option.some.inj h1
  have h3 := congrArg UInt8.toNat h2
  simp at h3
  omega

/-- What is sealed in a packet. -/
def Msg.sealed (m : Msg) : Bytes := (if m.ty == .decoy then (0x80 : UInt8) else 0) :: m.contents

theorem packet_sealed (kL kP : Bytes) (n : Nat) (aad : Bytes) (m : Msg) :
    Spec.packet P kL kP n (m.ty == .decoy) aad m.contents
      = Spec.xor (Spec.le 3 m.contents.length) (Spec.lengthMask P kL n) ++
        (P.sealC (Spec.packetKey P kP (n / 224)) (Spec.packetNonce n) aad m.sealed).1 ++
        (P.sealC (Spec.packetKey P kP (n / 224)) (Spec.packetNonce n) aad m.sealed).2 := rfl

/-- Exchanges two values. -/
def exchange (p q x : Bytes) : Bytes := if x = p then q else if x = q then p else x

theorem exchange_length {p q : Bytes} (h : p.length = q.length) (x : Bytes) : (exchange p q x).length = x.length := by
  unfold exchange
  by_cases h1 : x = p
  · rw [if_pos h1, h1, h]
  · rw [if_neg h1]
    by_cases h2 : x = q
    · rw [if_pos h2, h2, h]
    · rw [if_neg h2]

theorem exchange_inv (p q x : Bytes) : exchange p q (exchange p q x) = x := by
  unfold exchange
  by_cases h1 : x = p
  · rw [if_pos h1]
    by_cases h2 : q = p
    · rw [if_pos h2, h1, h2]
    · rw [if_neg h2, if_pos rfl, h1]
  · rw [if_neg h1]
    by_cases h2 : x = q
    · rw [if_pos h2, if_pos rfl, h2]
    · rw [if_neg h2, if_neg h1, if_neg h2]

theorem exchange_right (p q : Bytes) : exchange p q q = p := by
  unfold exchange
  by_cases h : q = p
  · rw [if_pos h, h]
  · rw [if_neg h, if_pos rfl]

/-- Two lists of messages: of equal lengths, with the same AAD, and the same except for the hidden ones. -/
structure AlikeOff (hidden : Nat → Bool) (ms ms' : List Msg) : Prop where
  count : ms'.length = ms.length
  length : ∀ (i : Nat) (h : i < ms.length) (h' : i < ms'.length), ms'[i].contents.length = ms[i].contents.length
  aad : ∀ (i : Nat) (h : i < ms.length) (h' : i < ms'.length), ms'[i].aad = ms[i].aad
  same : ∀ (i : Nat) (h : i < ms.length) (h' : i < ms'.length), hidden i = false → ms'[i] = ms[i]

/-- The number of the hidden packet that is sealed with this key and nonce. -/
def hiddenAt (P : Prims) (kP : Bytes) (hidden : Nat → Bool) (count : Nat) (k n : Bytes) : Option Nat :=
  (List.range count).find? fun i => hidden i && k == Spec.packetKey P kP (i / 224) && n == Spec.packetNonce i

/-- Under the key and nonce of a hidden packet, its two plaintexts are exchanged. -/
def renamed (P : Prims) (kP : Bytes) (hidden : Nat → Bool) (ms ms' : List Msg) (k n x : Bytes) : Bytes :=
  match hiddenAt P kP hidden ms.length k n with
  | some i =>
    match ms[i]?, ms'[i]? with
    | some m, some m' => exchange m.sealed m'.sealed x
    | _, _ => x
  | none => x

theorem renamed_off {kP k n : Bytes} {hidden : Nat → Bool} {ms ms' : List Msg}
    (h : ¬ Spec.KeysOf P kP hidden k n) (x : Bytes) : renamed P kP hidden ms ms' k n x = x := by
  unfold renamed
  cases hf : hiddenAt P kP hidden ms.length k n with
  | none => rfl
  | some i =>
    have := List.find?_some hf
    simp only [Bool.and_eq_true, beq_iff_eq] at this
    exact absurd ⟨i, this.1.1, this.1.2, this.2⟩ h

theorem renamed_length {hidden : Nat → Bool} {ms ms' : List Msg} (h : AlikeOff hidden ms ms') (kP k n x : Bytes) :
    (renamed P kP hidden ms ms' k n x).length = x.length := by
  unfold renamed
  split
  · split
    · rename_i m m' h1 h2
      refine exchange_length ?_ x
      obtain ⟨l1, rfl⟩ := List.getElem?_eq_some_iff.1 h1
      obtain ⟨l2, rfl⟩ := List.getElem?_eq_some_iff.1 h2
      simp [Msg.sealed, h.length _ l1 l2]
    · rfl
  · rfl

theorem renamed_inv (kP : Bytes) (hidden : Nat → Bool) (ms ms' : List Msg) (k n x : Bytes) :
    renamed P kP hidden ms ms' k n (renamed P kP hidden ms ms' k n x) = x := by
  unfold renamed
  cases hiddenAt P kP hidden ms.length k n with
  | none => rfl
  | some i =>
    simp only
    generalize ms[i]? = x1
    generalize ms'[i]? = x2
    cases x1 <;> cases x2 <;> first | rfl | exact exchange_inv _ _ _

theorem renamed_hidden {kP : Bytes} {hidden : Nat → Bool} {ms ms' : List Msg} {i : Nat} (hi : i < ms.length)
    (hi' : i < ms'.length) (h32 : ms.length < 2 ^ 32) (hh : hidden i = true) :
    renamed P kP hidden ms ms' (Spec.packetKey P kP (i / 224)) (Spec.packetNonce i) ms'[i].sealed = ms[i].sealed := by
  have hf : hiddenAt P kP hidden ms.length (Spec.packetKey P kP (i / 224)) (Spec.packetNonce i) = some i := by
    cases hx : hiddenAt P kP hidden ms.length (Spec.packetKey P kP (i / 224)) (Spec.packetNonce i) with
    | none =>
      have := List.find?_eq_none.1 hx i (List.mem_range.2 hi)
      simp [hh] at this
    | some j =>
      have h1 := List.find?_some hx
      have h2 := List.mem_of_find?_eq_some hx
      simp only [Bool.and_eq_true, beq_iff_eq] at h1
      have := packetNonce_inj (by omega) (by have := List.mem_range.1 h2; omega) h1.2
      rw [this]
  unfold renamed
  simp only [hf, List.getElem?_eq_getElem hi, List.getElem?_eq_getElem hi']
  exact exchange_right _ _

theorem renamed_visible {kP : Bytes} {hidden : Nat → Bool} {ms ms' : List Msg} (h32 : ms.length < 2 ^ 32) {i : Nat}
    (hi : i < ms.length) (hh : hidden i = false) (x : Bytes) :
    renamed P kP hidden ms ms' (Spec.packetKey P kP (i / 224)) (Spec.packetNonce i) x = x := by
  unfold renamed
  cases hx : hiddenAt P kP hidden ms.length (Spec.packetKey P kP (i / 224)) (Spec.packetNonce i) with
  | none => rfl
  | some j =>
    have h1 := List.find?_some hx
    have h2 := List.mem_of_find?_eq_some hx
    simp only [Bool.and_eq_true, beq_iff_eq] at h1
    have := packetNonce_inj (by omega) (by have := List.mem_range.1 h2; omega) h1.2
    rw [← this, hh] at h1
    exact absurd h1.1.1 (by decide)

theorem rename_packetKey (kP : Bytes) (hidden : Nat → Bool) (ms ms' : List Msg) (e : Nat) :
    Spec.packetKey (P.rename (renamed P kP hidden ms ms')) kP e = Spec.packetKey P kP e := by
  induction e with
  | zero => rfl
  | succ e ih =>
    show (P.sealC _ _ [] (renamed P kP hidden ms ms' _ _ _)).1 = (P.sealC _ _ _ _).1
    rw [ih, renamed_off]
    rintro ⟨i, -, -, h⟩
    exact rekeyNonce_ne _ _ h

theorem rename_lengthKey (σ : Bytes → Bytes → Bytes → Bytes) (kL : Bytes) (e : Nat) :
    Spec.lengthKey (P.rename σ) kL e = Spec.lengthKey P kL e := by
  induction e with
  | zero => rfl
  | succ e ih => simp only [Spec.lengthKey, ih]; rfl

theorem rename_at {σ : Bytes → Bytes → Bytes → Bytes} {kL kP : Bytes} {n : Nat} {o o' : OutboundCipher}
    (hk : ∀ e, Spec.packetKey (P.rename σ) kP e = Spec.packetKey P kP e) (h : OutboundCipher.At P kL kP n o)
    (h' : OutboundCipher.At (P.rename σ) kL kP n o') : o' = o := by
  obtain ⟨⟨lk, lb, lc⟩, pk, pm⟩ := o
  obtain ⟨⟨lk', lb', lc'⟩, pk', pm'⟩ := o'
  obtain ⟨⟨h1, h2, h3⟩, h4, h5⟩ := h
  obtain ⟨⟨h1', h2', h3'⟩, h4', h5'⟩ := h'
  rw [rename_lengthKey] at h3'
  rw [hk] at h5'
  simp only at h1 h2 h3 h4 h5 h1' h2' h3' h4' h5'
  subst h1 h2 h3 h4 h5 h1' h2' h3' h4' h5'
  rfl

/-! ## What the wire and the states tell -/

/-- What an attacker sees of a direction: all packets, and the state of the ciphers after the first `j` of them. -/
def Sees (P : Prims) (prof : Profile) (kL kP : Bytes) (ms : List Msg) (j : Nat) (seen : List Bytes × OutboundCipher) : Prop :=
  (∃ o, sendAll P prof ⟨FSStream.new kL, FSAead.new kP⟩ ms = .ok (o, seen.1)) ∧
    ∃ ws, sendAll P prof ⟨FSStream.new kL, FSAead.new kP⟩ (ms.take j) = .ok (seen.2, ws)

theorem Sees.intro {kL kP : Bytes} {ms : List Msg} {j : Nat} {o oj : OutboundCipher} {ws w : List Bytes}
    (h1 : sendAll P prof ⟨FSStream.new kL, FSAead.new kP⟩ ms = .ok (o, ws))
    (h2 : sendAll P prof ⟨FSStream.new kL, FSAead.new kP⟩ (ms.take j) = .ok (oj, w)) :
    Sees P prof kL kP ms j (ws, oj) := ⟨⟨o, h1⟩, w, h2⟩

/-- C74: for any set of packets there are primitives that agree with the given ones outside the keys and nonces of those
packets, and under which other messages of the same lengths in their place leave the same bytes on the wire and the same
states of the ciphers, at every moment. -/
theorem C74_hidden (hP : Lawful P) (kL kP : Bytes) (hidden : Nat → Bool) {ms ms' : List Msg}
    (h : AlikeOff hidden ms ms') (h32 : ms.length < 2 ^ 32) :
    ∃ Q, Lawful Q ∧ Spec.SameOff (Spec.KeysOf P kP hidden) P Q ∧
      ∀ j, ∃ seen, Sees P prof kL kP ms j seen ∧ Sees Q prof kL kP ms' j seen := by
  have hQ : Lawful (P.rename (renamed P kP hidden ms ms')) :=
    rename_lawful hP (renamed_length h kP) (renamed_inv kP hidden ms ms')
  refine ⟨P.rename (renamed P kP hidden ms ms'), hQ, ⟨?_, ?_, rfl, rfl, rfl, rfl, rfl⟩, fun j => ?_⟩
  · intro k n a c hb
    show P.sealC k n a (renamed P kP hidden ms ms' k n c) = _
    rw [renamed_off hb]
  · intro k n a c t hb
    show (P.openC k n a c t).map (renamed P kP hidden ms ms' k n) = _
    cases P.openC k n a c t with
    | none => rfl
    | some p => rw [Option.map_some, renamed_off hb]
  have hlt := List.length_take_le' j ms
  have hlt' := List.length_take_le' j ms'
  have hc := h.count
  obtain ⟨o, -, hs⟩ := sendAll_at (prof := prof) hP kL kP ms 0 ⟨FSStream.new kL, FSAead.new kP⟩
    ⟨FSStream.at_new _, FSAead.at_new _⟩ (by omega)
  obtain ⟨o', -, hs'⟩ := sendAll_at (prof := prof) hQ kL kP ms' 0 ⟨FSStream.new kL, FSAead.new kP⟩
    ⟨FSStream.at_new _, FSAead.at_new _⟩ (by omega)
  obtain ⟨oj, ha, hsj⟩ := sendAll_at (prof := prof) hP kL kP (ms.take j) 0 ⟨FSStream.new kL, FSAead.new kP⟩
    ⟨FSStream.at_new _, FSAead.at_new _⟩ (by omega)
  obtain ⟨oj', ha', hsj'⟩ := sendAll_at (prof := prof) hQ kL kP (ms'.take j) 0 ⟨FSStream.new kL, FSAead.new kP⟩
    ⟨FSStream.at_new _, FSAead.at_new _⟩ (by omega)
  rw [show (ms'.take j).length = (ms.take j).length by rw [List.length_take, List.length_take, hc]] at ha'
  obtain rfl := rename_at (rename_packetKey kP hidden ms ms') ha ha'
  suffices hw : (ms'.mapIdx fun i m => Spec.packet (P.rename (renamed P kP hidden ms ms')) kL kP (0 + i)
      (m.ty == .decoy) (m.aad.getD []) m.contents)
      = ms.mapIdx fun i m => Spec.packet P kL kP (0 + i) (m.ty == .decoy) (m.aad.getD []) m.contents by
    rw [hw] at hs'
    exact ⟨(_, oj'), Sees.intro hs hsj, Sees.intro hs' hsj'⟩
  refine List.ext_getElem (by simp [hc]) ?_
  intro i h1 h2
  rw [List.getElem_mapIdx, List.getElem_mapIdx, Nat.zero_add]
  rw [List.length_mapIdx] at h1 h2
  have hlen := h.length i h2 h1
  have haad := h.aad i h2 h1
  have key : renamed P kP hidden ms ms' (Spec.packetKey P kP (i / 224)) (Spec.packetNonce i) ms'[i].sealed
      = ms[i].sealed := by
    cases hh : hidden i with
    | true => exact renamed_hidden h2 h1 h32 hh
    | false => rw [renamed_visible h32 h2 hh, h.same i h2 h1 hh]
  have hkey := rename_packetKey (P := P) kP hidden ms ms' (i / 224)
  have hmask : Spec.lengthMask (P.rename (renamed P kP hidden ms ms')) kL i = Spec.lengthMask P kL i := by
    unfold Spec.lengthMask
    rw [rename_lengthKey]
    rfl
  have hseal : (P.rename (renamed P kP hidden ms ms')).sealC (Spec.packetKey P kP (i / 224)) (Spec.packetNonce i)
      (ms[i].aad.getD []) ms'[i].sealed
      = P.sealC (Spec.packetKey P kP (i / 224)) (Spec.packetNonce i) (ms[i].aad.getD []) ms[i].sealed := by
    show P.sealC _ _ _ (renamed P kP hidden ms ms' _ _ ms'[i].sealed) = _
    rw [key]
  rw [packet_sealed, packet_sealed, hmask, hkey, hlen, haad, hseal]

/-- What is seen is determined. -/
theorem Sees.unique {kL kP : Bytes} {ms : List Msg} {j : Nat} {s s' : List Bytes × OutboundCipher}
    (h : Sees P prof kL kP ms j s) (h' : Sees P prof kL kP ms j s') : s = s' := by
  obtain ⟨⟨o, h1⟩, w, h2⟩ := h
  obtain ⟨⟨o', h1'⟩, w', h2'⟩ := h'
  rw [h1] at h1'
  rw [h2] at h2'
  injection h1' with e1
  injection h2' with e2
  exact Prod.ext (Prod.mk.inj e1).2 (Prod.mk.inj e2).1

/-- C74: no attacker who does not use the key and nonce of a packet knows its type and contents from the wire and the
state of the ciphers at any moment: it is wrong for some primitives that agree with the given ones elsewhere, and
messages of the same lengths of which the others are the same. -/
theorem C74_no_attacker (hP : Lawful P) (kL kP : Bytes) (hidden : Nat → Bool) (ms : List Msg) (h32 : ms.length < 2 ^ 32)
    (j i : Nat) (hi : i < ms.length) (hh : hidden i = true)
    (attacker : Prims → List Bytes × OutboundCipher → PacketType × Bytes)
    (hblind : ∀ seen, Sees P prof kL kP ms j seen → Spec.Blind (Spec.KeysOf P kP hidden) P attacker seen) :
    ∃ Q ms' seen, Lawful Q ∧ Spec.SameOff (Spec.KeysOf P kP hidden) P Q ∧ AlikeOff hidden ms ms' ∧
      Sees Q prof kL kP ms' j seen ∧ ∃ h' : i < ms'.length, attacker Q seen ≠ ms'[i].visible := by
  have hrefl : AlikeOff hidden ms ms := ⟨rfl, fun _ _ _ => rfl, fun _ _ _ => rfl, fun _ _ _ _ => rfl⟩
  let other : PacketType := if ms[i].ty = .decoy then .genuine else .decoy
  have hother : other ≠ ms[i].ty := by
    show (if ms[i].ty = .decoy then PacketType.genuine else .decoy) ≠ _
    cases ms[i].ty <;> decide
  have hal : AlikeOff hidden ms (ms.set i { ms[i] with ty := other }) := by
    refine ⟨List.length_set, ?_, ?_, ?_⟩
    · intro k hk hk'
      rw [List.getElem_set]
      by_cases hik : i = k
      · subst hik; rw [if_pos rfl]
      · rw [if_neg hik]
    · intro k hk hk'
      rw [List.getElem_set]
      by_cases hik : i = k
      · subst hik; rw [if_pos rfl]
      · rw [if_neg hik]
    · intro k hk hk' hv
      rw [List.getElem_set, if_neg]
      rintro rfl
      rw [hh] at hv
      exact absurd hv (by decide)
  obtain ⟨Q, hQ, hs, hseen⟩ := C74_hidden (prof := prof) hP kL kP hidden hal h32
  obtain ⟨seen, h1, h2⟩ := hseen j
  by_cases hright : attacker P seen = ms[i].visible
  · refine ⟨Q, _, seen, hQ, hs, hal, h2, by rw [List.length_set]; exact hi, ?_⟩
    rw [hblind seen h1 Q hQ hs, hright, List.getElem_set_self]
    intro e
    exact hother (congrArg Prod.fst e).symm
  · exact ⟨P, ms, seen, hP, ⟨fun _ _ _ _ _ => rfl, fun _ _ _ _ _ _ => rfl, rfl, rfl, rfl, rfl, rfl⟩, hrefl, h1, hi, hright⟩

/-! ## A stolen state -/

/-- C74: the state of the ciphers does not depend on what has been sent, and depends on the first keys only through those
of the current epoch. -/
theorem C74_state (hP : Lawful P) {kL kP kL' kP' : Bytes} {ms ms' : List Msg} {o o' : OutboundCipher} {ws ws' : List Bytes}
    (h32 : ms.length < 2 ^ 32) (hn : ms'.length = ms.length)
    (hs : sendAll P prof ⟨FSStream.new kL, FSAead.new kP⟩ ms = .ok (o, ws))
    (hs' : sendAll P prof ⟨FSStream.new kL', FSAead.new kP'⟩ ms' = .ok (o', ws'))
    (hL : Spec.lengthKey P kL' (ms.length / 224) = Spec.lengthKey P kL (ms.length / 224))
    (hK : Spec.packetKey P kP' (ms.length / 224) = Spec.packetKey P kP (ms.length / 224)) : o' = o := by
  obtain ⟨o1, ⟨⟨h1, h2, h3⟩, h4, h5⟩, e1⟩ := sendAll_at (prof := prof) hP kL kP ms 0
    ⟨FSStream.new kL, FSAead.new kP⟩ ⟨FSStream.at_new _, FSAead.at_new _⟩ (by omega)
  obtain ⟨o2, ⟨⟨h1', h2', h3'⟩, h4', h5'⟩, e2⟩ := sendAll_at (prof := prof) hP kL' kP' ms' 0
    ⟨FSStream.new kL', FSAead.new kP'⟩ ⟨FSStream.at_new _, FSAead.at_new _⟩ (by omega)
  rw [e1] at hs
  rw [e2] at hs'
  injection hs with hs
  injection hs' with hs'
  obtain ⟨rfl, -⟩ := Prod.mk.inj hs
  obtain ⟨rfl, -⟩ := Prod.mk.inj hs'
  obtain ⟨⟨lk, lb, lc⟩, pk, pm⟩ := o1
  obtain ⟨⟨lk', lb', lc'⟩, pk', pm'⟩ := o2
  rw [Nat.zero_add] at h1 h2 h3 h4 h5
  rw [Nat.zero_add, hn] at h1' h2' h3' h4' h5'
  rw [hL] at h3'
  rw [hK] at h5'
  simp only at h1 h2 h3 h4 h5 h1' h2' h3' h4' h5'
  subst h1 h2 h3 h4 h5
  rw [h1', h2', h3', h4', h5']

/-- The ciphers with their counters put back to the beginning of the epoch. -/
def OutboundCipher.rewind (o : OutboundCipher) : InboundCipher :=
  ⟨⟨o.lengthCipher.key, 0, o.lengthCipher.chunkCounter / 224 * 224⟩,
    ⟨o.packetCipher.key, o.packetCipher.messageCounter / 224 * 224⟩⟩

/-- The packets before the current epoch. -/
def earlier (j i : Nat) : Bool := decide (i < j / 224 * 224)

/-- C74: forward secrecy.  No attacker who has the state of the ciphers after `j` packets, and does not use the keys of
the epochs before it, knows the type and contents of any packet of those epochs. -/
theorem C74_forward (hP : Lawful P) (kL kP : Bytes) (ms : List Msg) (h32 : ms.length < 2 ^ 32) (j i : Nat)
    (hj : j ≤ ms.length) (hi : i < j / 224 * 224)
    (attacker : Prims → List Bytes × OutboundCipher → PacketType × Bytes)
    (hblind : ∀ seen, Sees P prof kL kP ms j seen → Spec.Blind (Spec.KeysOf P kP (earlier j)) P attacker seen) :
    ∃ Q ms' seen, Lawful Q ∧ Spec.SameOff (Spec.KeysOf P kP (earlier j)) P Q ∧ AlikeOff (earlier j) ms ms' ∧
      Sees Q prof kL kP ms' j seen ∧ ∃ h' : i < ms'.length, attacker Q seen ≠ ms'[i].visible :=
  C74_no_attacker hP kL kP (earlier j) ms h32 j i (by omega) (by simpa [earlier] using hi) attacker hblind

theorem sameOff_packetKey {kP : Bytes} {hidden : Nat → Bool} {Q : Prims}
    (h : Spec.SameOff (Spec.KeysOf P kP hidden) P Q) (e : Nat) : Spec.packetKey Q kP e = Spec.packetKey P kP e := by
  induction e with
  | zero => rfl
  | succ e ih =>
    simp only [Spec.packetKey]
    rw [ih, h.sealC]
    rintro ⟨i, -, -, hn⟩
    exact rekeyNonce_ne _ _ hn

theorem sameOff_lengthKey {kL : Bytes} {bad : Bytes → Bytes → Prop} {Q : Prims} (h : Spec.SameOff bad P Q) (e : Nat) :
    Spec.lengthKey Q kL e = Spec.lengthKey P kL e := by
  induction e with
  | zero => rfl
  | succ e ih => simp only [Spec.lengthKey, ih, h.ks]

/-- C74: what a stolen state opens.  The state of the ciphers after `j` packets opens all packets of the current epoch,
which are `j % 224` that have been sent before, and all that are sent later: the receiving functions of the library, from
the state with its counters put back, return their types and contents.  They do not use a key of an earlier epoch. -/
theorem C74_exposed (hP : Lawful P) {kL kP : Bytes} {ms : List Msg} {j : Nat} {seen : List Bytes × OutboundCipher}
    (hsees : Sees P prof kL kP ms j seen) (hj : j ≤ ms.length) (h32 : ms.length < 2 ^ 32)
    (hlen : ∀ m ∈ ms, m.contents.length < 2 ^ 24) :
    ∀ Q, Lawful Q → Spec.SameOff (Spec.KeysOf P kP (earlier j)) P Q →
    ∃ i', recvAll Q prof seen.2.rewind ((ms.drop (j / 224 * 224)).map Msg.aad) (seen.1.drop (j / 224 * 224)).flatten
      = some (i', (ms.drop (j / 224 * 224)).map Msg.visible, []) := by
  intro Q hQ hsame
  obtain ⟨ws, oj⟩ := seen
  obtain ⟨⟨o, hs⟩, w, hsj⟩ := hsees
  have hjl : (ms.take j).length = j := List.length_take_of_le hj
  obtain ⟨o1, ⟨⟨h1, h2, h3⟩, h4, h5⟩, e1⟩ := sendAll_at (prof := prof) hP kL kP (ms.take j) 0
    ⟨FSStream.new kL, FSAead.new kP⟩ ⟨FSStream.at_new _, FSAead.at_new _⟩ (by omega)
  rw [Nat.zero_add, hjl] at h1 h2 h3 h4 h5
  obtain ⟨o2, -, e2⟩ := sendAll_at (prof := prof) hP kL kP ms 0
    ⟨FSStream.new kL, FSAead.new kP⟩ ⟨FSStream.at_new _, FSAead.at_new _⟩ (by omega)
  simp only at hs hsj
  rw [e1] at hsj
  rw [e2] at hs
  injection hs with hs
  injection hsj with hsj
  obtain ⟨-, rfl⟩ := Prod.mk.inj hs
  obtain ⟨rfl, -⟩ := Prod.mk.inj hsj
  have hd : j / 224 * 224 / 224 = j / 224 := by omega
  have hm0 : j / 224 * 224 % 224 = 0 := by omega
  have hear : ∀ i, earlier j i = true → i < j / 224 * 224 := fun i h => by simpa [earlier] using h
  generalize hb : j / 224 * 224 = b at hd hm0 hear ⊢
  have hbj : b ≤ j := by omega
  have hat : OutboundCipher.At Q kL kP b ⟨o1.rewind.lengthCipher, o1.rewind.packetCipher⟩ := by
    refine ⟨⟨?_, ?_, ?_⟩, ?_, ?_⟩
    · show o1.lengthCipher.chunkCounter / 224 * 224 = b
      rw [h1, hb]
    · show 0 = 3 * (b % 224)
      rw [hm0]
    · show o1.lengthCipher.key = _
      rw [h3, hd, sameOff_lengthKey hsame]
    · show o1.packetCipher.messageCounter / 224 * 224 = b
      rw [h4, hb]
    · show o1.packetCipher.key = _
      rw [h5, hd, sameOff_packetKey hsame]
  have hdl : (ms.drop b).length = ms.length - b := List.length_drop
  obtain ⟨o3, -, e3⟩ := sendAll_at (prof := prof) hQ kL kP (ms.drop b) b _ hat (by omega)
  obtain ⟨i', -, hr⟩ := C02_stream_round_trip (prof := prof) hQ (ms.drop b) (i := o1.rewind) ⟨rfl, rfl⟩
    (fun m hm => hlen m (List.mem_of_mem_drop hm)) e3 []
  refine ⟨i', ?_⟩
  rw [List.append_nil] at hr
  have hw : (ms.mapIdx fun i m => Spec.packet P kL kP (0 + i) (m.ty == .decoy) (m.aad.getD []) m.contents).drop b
      = (ms.drop b).mapIdx fun i m => Spec.packet Q kL kP (b + i) (m.ty == .decoy) (m.aad.getD []) m.contents := by
    refine List.ext_getElem (by simp) ?_
    intro i l1 l2
    rw [List.getElem_drop, List.getElem_mapIdx, List.getElem_mapIdx, List.getElem_drop, Nat.zero_add]
    rw [List.length_mapIdx] at l2
    simp only [Spec.packet, Spec.lengthMask, sameOff_lengthKey hsame, sameOff_packetKey hsame, hsame.ks]
    rw [hsame.sealC]
    rintro ⟨k, hk, -, hn⟩
    have hk' := hear k hk
    have := packetNonce_inj (by omega) (by omega) hn
    omega
  rw [hw]
  exact hr

/-! ## Examples -/

/-- 300 packets, of which the state after 250 is stolen. -/
example : ∃ (ms : List Msg) (seen : List Bytes × OutboundCipher), ms.length = 300 ∧ 250 / 224 * 224 = 224 ∧
    Sees toy .debug (zeros 32) (zeros 32) ms 250 seen := by
  obtain ⟨Q, hQ, -, h⟩ := C74_hidden (prof := .debug) toy_lawful (zeros 32) (zeros 32) (fun _ => true)
    (ms := List.replicate 300 ⟨.genuine, [1, 2], none⟩) (ms' := List.replicate 300 ⟨.genuine, [1, 2], none⟩)
    ⟨rfl, fun _ _ _ => rfl, fun _ _ _ => rfl, fun _ _ _ _ => rfl⟩ (by rw [List.length_replicate]; omega)
  obtain ⟨seen, h1, -⟩ := h 250
  exact ⟨_, seen, List.length_replicate .., by decide, h1⟩

/-- Other messages of the same lengths. -/
example : AlikeOff (fun i => i == 1) [⟨.genuine, [1, 2], none⟩, ⟨.genuine, [3], some [9]⟩]
    [⟨.genuine, [1, 2], none⟩, ⟨.decoy, [4], some [9]⟩] := by
  refine ⟨rfl, ?_, ?_, ?_⟩ <;>
  · intro i h h'
    match i, h with
    | 0, _ => simp
    | 1, _ => simp

/-- An attacker who does not use any key: it has the length only. -/
example (seen : List Bytes × OutboundCipher) (bad : Bytes → Bytes → Prop) :
    Spec.Blind bad P (fun _ seen => (PacketType.genuine, zeros ((seen.1.headD []).length - 20))) seen :=
  fun _ _ _ => rfl

/-- From the state after two packets, both are opened. -/
example : (match sendAll toy .debug ⟨FSStream.new (leBytes 32 7), FSAead.new (leBytes 32 9)⟩
      [⟨.genuine, [1, 2], none⟩, ⟨.decoy, [3], none⟩] with
    | .ok (o, ws) => (recvAll toy .debug o.rewind [none, none] ws.flatten).map fun r => r.2.1
    | _ => none) = some [(.genuine, [1, 2]), (.decoy, [3])] := by
  decide +kernel

end Bip324
