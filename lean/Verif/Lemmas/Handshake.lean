import Verif.Model.Handshake
import Verif.Spec.Handshake
import Verif.Props.Stream

/-! # Helper lemmas on the handshake -/

namespace Bip324

variable {P : Prims} {prof : Profile}

/-! ## Terminator search -/

theorem slice_eq_iff_occurs {t b : Bytes} {i : Nat} :
    slice b i t.length = t ↔ (i + t.length ≤ b.length ∨ t = []) ∧ (t = [] ∨ Spec.OccursAt t b i) := by
  constructor
  · intro h
    by_cases ht : t = []
    · exact ⟨.inr ht, .inl ht⟩
    · have hlen := congrArg List.length h
      simp only [slice, List.length_take, List.length_drop] at hlen
      have ht' : 0 < t.length := List.length_pos_iff.mpr ht
      refine ⟨.inl (by omega), .inr ⟨b.take i, b.drop (i + t.length), ?_, by simp; omega⟩⟩
      conv => lhs; rw [← List.take_append_drop i b, ← List.take_append_drop t.length (b.drop i)]
      rw [show (b.drop i).take t.length = t from h, List.drop_drop, List.append_assoc]
  · rintro ⟨h1, h2⟩
    rcases h2 with rfl | ⟨pre, post, rfl, rfl⟩
    · simp [slice]
    · simp [slice]

/-- A window match inside the buffer is an occurrence. -/
theorem window_iff {t b : Bytes} {i : Nat} (ht : t.length = 16) :
    (i < b.length + 1 - t.length ∧ slice b i t.length = t) ↔ Spec.OccursAt t b i := by
  have hne : t ≠ [] := by intro h; simp [h] at ht
  rw [slice_eq_iff_occurs]
  constructor
  · rintro ⟨-, -, h | h⟩
    · exact absurd h hne
    · exact h
  · rintro ⟨pre, post, rfl, rfl⟩
    refine ⟨by simp; omega, .inl (by simp), .inr ⟨pre, post, rfl, rfl⟩⟩

/-- `windows(16).position` finds the first occurrence. -/
theorem windowPosition_some {t b : Bytes} {i : Nat} (ht : t.length = 16) :
    windowPosition b t = some i ↔ Spec.OccursAt t b i ∧ ∀ j < i, ¬ Spec.OccursAt t b j := by
  unfold windowPosition
  rw [List.find?_range_eq_some]
  simp only [beq_iff_eq, List.mem_range, Bool.not_eq_true', beq_eq_false_iff_ne]
  constructor
  · rintro ⟨h1, h2, h3⟩
    refine ⟨(window_iff ht).1 ⟨h2, h1⟩, fun j hj hocc => h3 j hj ((window_iff ht).2 hocc).2⟩
  · rintro ⟨h1, h2⟩
    obtain ⟨ha, hb⟩ := (window_iff ht).2 h1
    exact ⟨hb, ha, fun j hj hs => h2 j hj ((window_iff ht).1 ⟨by omega, hs⟩)⟩

theorem windowPosition_none {t b : Bytes} (ht : t.length = 16) :
    windowPosition b t = none ↔ ∀ j, ¬ Spec.OccursAt t b j := by
  unfold windowPosition
  rw [List.find?_eq_none]
  simp only [beq_iff_eq, List.mem_range]
  constructor
  · intro h j hocc
    obtain ⟨ha, hb⟩ := (window_iff ht).2 hocc
    exact h j ha hb
  · intro h j hj hs
    exact h j ((window_iff ht).1 ⟨hj, hs⟩)

/-- Occurrences in a prefix. -/
theorem occursAt_take {t b : Bytes} {i n : Nat} :
    Spec.OccursAt t (b.take n) i ↔ Spec.OccursAt t b i ∧ i + t.length ≤ (b.take n).length := by
  constructor
  · rintro ⟨pre, post, h, rfl⟩
    refine ⟨⟨pre, post ++ b.drop n, ?_, rfl⟩, by rw [h]; simp⟩
    conv => lhs; rw [← List.take_append_drop n b]
    rw [h]; simp
  · rintro ⟨⟨pre, post, rfl, rfl⟩, hle⟩
    refine ⟨pre, post.take (n - (pre ++ t).length), ?_, rfl⟩
    rw [List.take_append, List.take_of_length_le]
    simp only [List.length_take, List.length_append] at hle ⊢
    omega

theorem occursAt_append {t b c : Bytes} {i : Nat} (h : Spec.OccursAt t b i) :
    Spec.OccursAt t (b ++ c) i := by
  obtain ⟨pre, post, rfl, rfl⟩ := h
  exact ⟨pre, post ++ c, by simp, rfl⟩

theorem occursAt_of_append {t b c : Bytes} {i : Nat} (h : Spec.OccursAt t (b ++ c) i)
    (hi : i + t.length ≤ b.length) : Spec.OccursAt t b i := by
  have : Spec.OccursAt t ((b ++ c).take b.length) i := by
    rw [occursAt_take]; exact ⟨h, by simpa using hi⟩
  simpa using this

theorem OccursAt.le {t b : Bytes} {i : Nat} (h : Spec.OccursAt t b i) : i + t.length ≤ b.length := by
  obtain ⟨pre, post, rfl, rfl⟩ := h
  simp

/-! ## send_version -/

theorem encryptInto_split (hP : Lawful P) {o o' : OutboundCipher} {pre mid post contents w : Bytes}
    {off : Nat} {ty : PacketType} {aad : Option Bytes} (hoff : off = pre.length)
    (hmid : mid.length = contents.length + 20)
    (he : o.encryptToVec P prof contents ty aad = (o', .ok w)) :
    encryptInto P prof o (pre ++ (mid ++ post)) off contents ty aad
      = (o', pre ++ (w ++ post), .ok ()) ∧ w.length = contents.length + 20 := by
  obtain ⟨pc, ct, tag, lc, encLen, he', hl, rfl, rfl⟩ :=
    OutboundCipher.encryptToVec_ok_inv hP o contents ty aad he
  obtain ⟨hct, htag⟩ := FSAead.encrypt_lengths hP he'
  have henc : encLen.length = 3 := by rw [FSStream.crypt_length hl]; simp
  have hw : (encLen ++ ct ++ tag).length = contents.length + 20 := by
    simp [henc, hct, htag]; omega
  refine ⟨?_, hw⟩
  unfold encryptInto
  simp only
  rw [slice_split hoff (by rw [hmid]; rfl),
    OutboundCipher.encrypt_eq hP o contents mid ty aad (by omega) he' hl,
    List.drop_of_length_le (by omega), List.append_nil]
  simp only
  rw [writeAt_split hoff (by omega)]

/-- The messages `send_version` encrypts. -/
def handshakeMsgs (aad : Option Bytes) : List Bytes → List Msg
  | [] => [⟨.genuine, [], aad⟩]
  | d :: ds => ⟨.decoy, d, aad⟩ :: handshakeMsgs none ds

theorem handshakeMsgs_length (aad : Option Bytes) (ds : List Bytes) :
    (handshakeMsgs aad ds).length = ds.length + 1 := by
  induction ds generalizing aad with
  | nil => rfl
  | cons d ds ih => simp [handshakeMsgs, ih]

/-- Total size of the packets `send_version` writes. -/
def packetsLen : List Bytes → Nat
  | [] => 20
  | d :: ds => (d.length + 20) + packetsLen ds

theorem sendVersionLen_eq (decoys : Option (List Bytes)) :
    HsReceivedKey.sendVersionLen decoys = 16 + packetsLen (decoys.getD []) := by
  have key : ∀ (ds : List Bytes) (n : Nat),
      ds.foldl (fun l d => l + OutboundCipher.encryptionBufferLen d.length) n + 20
        = n + packetsLen ds := by
    intro ds
    induction ds with
    | nil => intro n; rfl
    | cons d ds ih =>
      intro n
      rw [List.foldl_cons, ih, packetsLen]
      simp only [OutboundCipher.encryptionBufferLen, NUM_PACKET_OVERHEAD_BYTES, NUM_LENGTH_BYTES,
        NUM_HEADER_BYTES, NUM_TAG_BYTES]
      omega
  cases decoys with
  | none => rfl
  | some ds =>
    have := key ds (16 + 20)
    show ds.foldl (fun l d => l + OutboundCipher.encryptionBufferLen d.length) (16 + 20)
      = 16 + packetsLen ds
    omega

theorem writeDecoys_version (hP : Lawful P) (ds : List Bytes) {o o' : OutboundCipher}
    {pre mid post : Bytes} {off : Nat} {aad : Option Bytes} {ws : List Bytes}
    (hoff : off = pre.length) (hmid : mid.length = packetsLen ds)
    (hs : sendAll P prof o (handshakeMsgs aad ds) = .ok (o', ws)) :
    ∃ o1 buf1 off1 aad1,
      writeDecoys P prof o (pre ++ (mid ++ post)) off aad ds = (o1, buf1, off1, aad1, .ok ()) ∧
      encryptInto P prof o1 buf1 off1 [] .genuine aad1
        = (o', pre ++ (ws.flatten ++ post), .ok ()) ∧ ws.flatten.length = packetsLen ds := by
  induction ds generalizing o pre mid off aad ws with
  | nil =>
    refine ⟨o, pre ++ (mid ++ post), off, aad, rfl, ?_⟩
    simp only [handshakeMsgs, sendAll] at hs
    split at hs
    · rename_i o1 w he
      simp only [Outcome.ok.injEq, Prod.mk.injEq] at hs
      obtain ⟨rfl, rfl⟩ := hs
      have := encryptInto_split hP (mid := mid) (post := post) hoff (by simpa [packetsLen] using hmid) he
      simpa [packetsLen] using this
    · simp at hs
    · simp at hs
  | cons d ds ih =>
    simp only [handshakeMsgs, sendAll] at hs
    split at hs
    · rename_i o1 w he
      split at hs
      · rename_i o2 ws' hs'
        simp only [Outcome.ok.injEq, Prod.mk.injEq] at hs
        obtain ⟨rfl, rfl⟩ := hs
        obtain ⟨m1, m2, m3, hm, hm1, hm2, hm3⟩ := split3 (buf := mid) (i := d.length + 20)
          (n := packetsLen ds) (by rw [hmid, packetsLen]; exact Nat.le_refl _)
        have hm3' : m3 = [] := by
          rw [hm3]; apply List.drop_of_length_le; rw [hmid, packetsLen]; exact Nat.le_refl _
        subst hm3'
        rw [List.append_nil] at hm
        obtain ⟨he1, hw⟩ := encryptInto_split hP (mid := m1) (post := m2 ++ post) hoff hm1 he
        obtain ⟨o3, b3, off3, aad3, h1, h2, h3⟩ := ih (pre := pre ++ w) (mid := m2)
          (off := off + (d.length + 20)) (aad := none) (by simp [hoff, hw]) hm2 hs'
        refine ⟨o3, b3, off3, aad3, ?_, ?_, ?_⟩
        · rw [writeDecoys, hm, List.append_assoc, he1]
          simp only
          rw [show pre ++ (w ++ (m2 ++ post)) = pre ++ w ++ (m2 ++ post) by simp]
          exact h1
        · rw [h2]; simp
        · simp [packetsLen, hw, h3]
      · simp at hs
      · simp at hs
    · simp at hs
    · simp at hs

/-- The two terminators as seen by a role. -/
def SessionKeyMaterial.localTerminator (k : SessionKeyMaterial) : Role → Bytes
  | .initiator => k.initiatorGarbageTerminator
  | .responder => k.responderGarbageTerminator

def SessionKeyMaterial.remoteTerminator (k : SessionKeyMaterial) : Role → Bytes
  | .initiator => k.responderGarbageTerminator
  | .responder => k.initiatorGarbageTerminator

/-- `send_version` in one formula. -/
theorem sendVersion_eq (hP : Lawful P) (h : HsReceivedKey) (buf : Bytes)
    (decoys : Option (List Bytes)) (hbuf : 16 + packetsLen (decoys.getD []) ≤ buf.length)
    (hterm : (h.sessionKeys.localTerminator h.role).length = 16) {o' : OutboundCipher}
    {ws : List Bytes}
    (hs : sendAll P prof (CipherSession.new h.sessionKeys h.role).outbound
      (handshakeMsgs h.localGarbage (decoys.getD [])) = .ok (o', ws)) :
    h.sendVersion P prof buf decoys =
      (h.sessionKeys.localTerminator h.role ++ ws.flatten ++
          buf.drop (16 + packetsLen (decoys.getD [])),
        .ok { magic := h.magic, role := h.role
              cipher := { CipherSession.new h.sessionKeys h.role with outbound := o' }
              remoteTerminator := h.sessionKeys.remoteTerminator h.role }) := by
  obtain ⟨b1, b2, b3, hb, h1, h2, h3⟩ := split3 (buf := buf) (i := 16)
    (n := packetsLen (decoys.getD [])) hbuf
  have hw : writeAt buf 0 (h.sessionKeys.localTerminator h.role)
      = h.sessionKeys.localTerminator h.role ++ (b2 ++ b3) := by
    have := writeAt_split (pre := []) (mid := b1) (post := b2 ++ b3) (i := 0)
      (src := h.sessionKeys.localTerminator h.role) rfl (by omega)
    rw [hb]; simpa using this
  obtain ⟨o1, buf1, off1, aad1, hd, he, -⟩ := writeDecoys_version hP (decoys.getD [])
    (pre := h.sessionKeys.localTerminator h.role) (post := b3) hterm.symm h2 hs
  unfold HsReceivedKey.sendVersion
  simp only [sendVersionLen_eq]
  rw [if_neg (by omega), ← h3]
  cases hr : h.role <;>
  · rw [hr] at hw hd he hs
    simp only [SessionKeyMaterial.localTerminator, SessionKeyMaterial.remoteTerminator] at hw hd he ⊢
    simp only [hw, hd, VERSION_CONTENT, he]
    simp

theorem sendVersion_small (h : HsReceivedKey) (buf : Bytes) (decoys : Option (List Bytes))
    (hbuf : buf.length < HsReceivedKey.sendVersionLen decoys) :
    h.sendVersion P prof buf decoys
      = (buf, .err (.bufferTooSmall (HsReceivedKey.sendVersionLen decoys))) := by
  unfold HsReceivedKey.sendVersion
  simp only
  rw [if_pos hbuf]

/-- Keys of the direction in which a role sends. -/
def SessionKeyMaterial.sendKeys (k : SessionKeyMaterial) : Role → Bytes × Bytes
  | .initiator => (k.initiatorLengthKey, k.initiatorPacketKey)
  | .responder => (k.responderLengthKey, k.responderPacketKey)

theorem new_outbound (k : SessionKeyMaterial) (r : Role) :
    (CipherSession.new k r).outbound
      = ⟨FSStream.new (k.sendKeys r).1, FSAead.new (k.sendKeys r).2⟩ := by cases r <;> rfl

theorem mapIdx_map' {α β γ : Type} (f : α → β) (g : Nat → β → γ) (l : List α) :
    (l.map f).mapIdx g = l.mapIdx fun i a => g i (f a) := by
  rw [List.mapIdx_eq_iff]
  intro i
  simp
  rfl

theorem handshakeMsgs_spec (aad : Option Bytes) (ds : List Bytes) :
    (handshakeMsgs aad ds).map (fun m => (m.ty == .decoy, m.contents, m.aad.getD []))
      = Spec.handshakePackets (aad.getD []) ds := by
  have aux : ∀ ds : List Bytes,
      (handshakeMsgs none ds).map (fun m => (m.ty == .decoy, m.contents, m.aad.getD []))
        = (ds.map fun x => (true, x, [])) ++ [(false, [], [])] := by
    intro ds
    induction ds with
    | nil => rfl
    | cons d ds ih => simp only [handshakeMsgs, List.map_cons, ih]; rfl
  cases ds with
  | nil => rfl
  | cons d ds => simp only [handshakeMsgs, List.map_cons, aux]; rfl

theorem sendAll_handshake (hP : Lawful P) (k : SessionKeyMaterial) (r : Role) (aad : Option Bytes)
    (ds : List Bytes) (hn : ds.length + 1 < 2 ^ 32) :
    ∃ o' ws, sendAll P prof (CipherSession.new k r).outbound (handshakeMsgs aad ds) = .ok (o', ws) ∧
      ∀ t, t ++ ws.flatten
        = Spec.versionBytes P t (k.sendKeys r).1 (k.sendKeys r).2 (aad.getD []) ds := by
  obtain ⟨o', ho⟩ := C09_packets_conform (prof := prof) hP (k.sendKeys r).1 (k.sendKeys r).2
    (handshakeMsgs aad ds) (by rw [handshakeMsgs_length]; exact hn)
  refine ⟨o', _, by rw [new_outbound]; exact ho, fun t => ?_⟩
  unfold Spec.versionBytes
  rw [← handshakeMsgs_spec, mapIdx_map']

/-- After the handshake's packets the outbound cipher is where the schedule says. -/
theorem sendAll_handshake_at (hP : Lawful P) (k : SessionKeyMaterial) (r : Role) (aad : Option Bytes)
    (ds : List Bytes) (hn : ds.length + 1 < 2 ^ 32) {o' : OutboundCipher} {ws : List Bytes}
    (h : sendAll P prof (CipherSession.new k r).outbound (handshakeMsgs aad ds) = .ok (o', ws)) :
    OutboundCipher.At P (k.sendKeys r).1 (k.sendKeys r).2 (ds.length + 1) o' := by
  rw [new_outbound] at h
  obtain ⟨o1, ha, ho⟩ := sendAll_at (prof := prof) hP (k.sendKeys r).1 (k.sendKeys r).2
    (handshakeMsgs aad ds) 0 ⟨FSStream.new _, FSAead.new _⟩ ⟨FSStream.at_new _, FSAead.at_new _⟩
    (by rw [handshakeMsgs_length, Nat.zero_add]; exact hn)
  rw [ho] at h
  cases h
  rw [handshakeMsgs_length, Nat.zero_add] at ha
  exact ha

theorem packetsLen_eq (ds : List Bytes) :
    packetsLen ds = 20 + (ds.map fun d => d.length + 20).sum := by
  induction ds with
  | nil => rfl
  | cons d ds ih => simp [packetsLen, ih]; omega

/-- A usable key is taken. -/
theorem newWithRng_ok {magic rng : Bytes} {role : Role} (h : Spec.UsableKey P prof rng) :
    HsInitialized.newWithRng P prof magic role rng = .ok ⟨magic, role, rng, P.ellswift rng⟩ := by
  unfold HsInitialized.newWithRng
  rw [if_neg, if_pos h.1]
  simp only [Bool.and_eq_true, beq_iff_eq, not_and]
  exact h.2

end Bip324
