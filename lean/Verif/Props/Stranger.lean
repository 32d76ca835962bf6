import Verif.Props.Chance
import Verif.Props.AnyScript

/-!
# Peers that do not know the keys: C86

BIP-324 lets anybody connect, but whoever does not take part in the key exchange - somebody who plays back a recorded conversation, who
sends the bytes of the library back to it, or who reacts in any other way to what it sees - must not get through the handshake.  Draw the
garbage terminator of the peer's direction at random, everything else being arbitrary and known to the peer, even the packet keys.
-/

namespace Bip324

variable {P : Prims} {prof : Profile} {σ : Type}

/-- The terminators drawn, from the point of view of one side: its own and the one it waits for. -/
def Spec.drawnFor (role : Role) (own peer : Fin (2 ^ 128)) : Spec.Terminators :=
  match role with
  | .initiator => (own, peer)
  | .responder => (peer, own)

/-! ## What is sent does not depend on the terminator waited for -/

theorem fromEcdh_withTerminators (P : Prims) (a b secret : Bytes) (party : Party) (magic : Bytes) :
    (∃ e, ∀ t, SessionKeyMaterial.fromEcdh (Spec.withTerminators P t) a b secret party magic = .err e) ∨
    ∃ k : SessionKeyMaterial, ∀ t, SessionKeyMaterial.fromEcdh (Spec.withTerminators P t) a b secret party magic =
      .ok { k with initiatorGarbageTerminator := leBytes 16 t.1.val, responderGarbageTerminator := leBytes 16 t.2.val } := by
  have hl : ∀ t salt ikm, (Spec.withTerminators P t).hkdf salt ikm (ascii "garbage_terminators") 32 =
      some (leBytes 16 t.1.val ++ leBytes 16 t.2.val) := by
    intro t salt ikm
    simp only [Spec.withTerminators]
    rw [if_pos ⟨by decide, trivial⟩]
  have hs : ∀ info, info ≠ Spec.lblTerminators → ∀ t salt ikm, (Spec.withTerminators P t).hkdf salt ikm info 32 =
      P.hkdf salt ikm info 32 := by
    intro info hi t salt ikm
    simp only [Spec.withTerminators]
    rw [if_neg (by simp [hi])]
  have he : ∀ t, (Spec.withTerminators P t).ecdh = P.ecdh := fun _ => rfl
  unfold SessionKeyMaterial.fromEcdh
  simp only [hl, hs (ascii "session_id") (by decide), hs (ascii "initiator_L") (by decide), hs (ascii "initiator_P") (by decide),
    hs (ascii "responder_L") (by decide), hs (ascii "responder_P") (by decide), he]
  generalize P.ecdh a b secret party _ = ikm
  cases P.hkdf _ ikm (ascii "session_id") 32 with
  | none => exact .inl ⟨_, fun _ => rfl⟩
  | some k1 =>
  cases P.hkdf _ ikm (ascii "initiator_L") 32 with
  | none => exact .inl ⟨_, fun _ => rfl⟩
  | some k2 =>
  cases P.hkdf _ ikm (ascii "initiator_P") 32 with
  | none => exact .inl ⟨_, fun _ => rfl⟩
  | some k3 =>
  cases P.hkdf _ ikm (ascii "responder_L") 32 with
  | none => exact .inl ⟨_, fun _ => rfl⟩
  | some k4 =>
  cases P.hkdf _ ikm (ascii "responder_P") 32 with
  | none => exact .inl ⟨_, fun _ => rfl⟩
  | some k5 =>
    refine .inr ⟨⟨k1, k2, k3, k4, k5, [], []⟩, fun t => ?_⟩
    simp only [List.take_left' (leBytes_length 16 t.1.val), List.drop_left' (leBytes_length 16 t.1.val)]

theorem receiveKey_withTerminators (P : Prims) (h : HsSentKey) (key : Bytes) :
    (∃ e, ∀ t, h.receiveKey (Spec.withTerminators P t) key = .err e) ∨
    ∃ k : SessionKeyMaterial, ∀ t, h.receiveKey (Spec.withTerminators P t) key = .ok ⟨h.magic, h.role,
      { k with initiatorGarbageTerminator := leBytes 16 t.1.val, responderGarbageTerminator := leBytes 16 t.2.val }, h.localGarbage⟩ := by
  unfold HsSentKey.receiveKey
  by_cases hm : h.magic = key.take 4
  · simp only [if_pos hm]
    exact .inl ⟨_, fun _ => rfl⟩
  · simp only [if_neg hm]
    cases hr : h.role with
    | initiator =>
      rcases fromEcdh_withTerminators P h.ellswift key h.secretKey .A h.magic with ⟨e, he⟩ | ⟨k, hk⟩
      · exact .inl ⟨e, fun t => by simp only [he]⟩
      · exact .inr ⟨k, fun t => by simp only [hk]⟩
    | responder =>
      rcases fromEcdh_withTerminators P key h.ellswift h.secretKey .B h.magic with ⟨e, he⟩ | ⟨k, hk⟩
      · exact .inl ⟨e, fun t => by simp only [he]⟩
      · exact .inr ⟨k, fun t => by simp only [hk]⟩

theorem writeDecoys_withTerminators (P : Prims) (t : Spec.Terminators) (ds : List Bytes) : ∀ (o : OutboundCipher) (buf : Bytes) (n : Nat)
    (aad : Option Bytes), writeDecoys (Spec.withTerminators P t) prof o buf n aad ds = writeDecoys P prof o buf n aad ds := by
  induction ds with
  | nil => intro o buf n aad; rfl
  | cons d ds ih =>
    intro o buf n aad
    simp only [writeDecoys]
    rw [show encryptInto (Spec.withTerminators P t) prof o buf n d .decoy aad = encryptInto P prof o buf n d .decoy aad from rfl]
    split
    · exact ih _ _ _ _
    · rfl

theorem sendVersion_withTerminators (P : Prims) (prof : Profile) (m : Bytes) (role : Role) (k : SessionKeyMaterial) (g : Option Bytes)
    (buf : Bytes) (d : Option (List Bytes)) (own : Fin (2 ^ 128)) :
    let keys (t : Spec.Terminators) : SessionKeyMaterial :=
      { k with initiatorGarbageTerminator := leBytes 16 t.1.val, responderGarbageTerminator := leBytes 16 t.2.val }
    (∃ buf' e, ∀ peer, HsReceivedKey.sendVersion (Spec.withTerminators P (Spec.drawnFor role own peer)) prof
      ⟨m, role, keys (Spec.drawnFor role own peer), g⟩ buf d = (buf', .err e)) ∨
    (∃ buf', ∀ peer, HsReceivedKey.sendVersion (Spec.withTerminators P (Spec.drawnFor role own peer)) prof
      ⟨m, role, keys (Spec.drawnFor role own peer), g⟩ buf d = (buf', .panic)) ∨
    ∃ buf' c, ∀ peer, HsReceivedKey.sendVersion (Spec.withTerminators P (Spec.drawnFor role own peer)) prof
      ⟨m, role, keys (Spec.drawnFor role own peer), g⟩ buf d = (buf', .ok ⟨m, role, c, leBytes 16 peer.val⟩) := by
  intro keys
  have hc : ∀ t, CipherSession.new (keys t) role = CipherSession.new k role := by
    intro t
    cases role <;> rfl
  have he : ∀ t o buf n, encryptInto (Spec.withTerminators P t) prof o buf n = encryptInto P prof o buf n := fun _ _ _ _ => rfl
  unfold HsReceivedKey.sendVersion
  simp only [hc, writeDecoys_withTerminators, he]
  by_cases hb : buf.length < HsReceivedKey.sendVersionLen d
  · simp only [if_pos hb]
    exact .inl ⟨_, _, fun _ => rfl⟩
  simp only [if_neg hb]
  cases role with
  | initiator =>
    simp only [keys, Spec.drawnFor]
    rcases hw : writeDecoys P prof (CipherSession.new k .initiator).outbound (writeAt buf 0 (leBytes 16 own.val))
      NUM_GARBAGE_TERMINATOR_BYTES g (d.getD []) with ⟨o, b1, off, aad, _ | e | _⟩
    · simp only
      rcases hv : encryptInto P prof o b1 off VERSION_CONTENT .genuine aad with ⟨o2, b2, _ | e | _⟩
      · exact .inr (.inr ⟨_, _, fun _ => rfl⟩)
      · exact .inl ⟨_, _, fun _ => rfl⟩
      · exact .inr (.inl ⟨_, fun _ => rfl⟩)
    · exact .inl ⟨_, _, fun _ => rfl⟩
    · exact .inr (.inl ⟨_, fun _ => rfl⟩)
  | responder =>
    simp only [keys, Spec.drawnFor]
    rcases hw : writeDecoys P prof (CipherSession.new k .responder).outbound (writeAt buf 0 (leBytes 16 own.val))
      NUM_GARBAGE_TERMINATOR_BYTES g (d.getD []) with ⟨o, b1, off, aad, _ | e | _⟩
    · simp only
      rcases hv : encryptInto P prof o b1 off VERSION_CONTENT .genuine aad with ⟨o2, b2, _ | e | _⟩
      · exact .inr (.inr ⟨_, _, fun _ => rfl⟩)
      · exact .inl ⟨_, _, fun _ => rfl⟩
      · exact .inr (.inl ⟨_, fun _ => rfl⟩)
    · exact .inl ⟨_, _, fun _ => rfl⟩
    · exact .inr (.inl ⟨_, fun _ => rfl⟩)

/-! ## The search -/

theorem garbageLoopN_windows (N : Conn σ) (m : Bytes) (role : Role) (c : CipherSession) : ∀ (fuel : Nat) (buf : Bytes) (r : ConnRun σ),
    ∃ B, buf <+: B ∧ ∀ t : Bytes, t.length = 16 → ∀ r' v, garbageLoopN fuel N ⟨m, role, c, t⟩ buf r = some (r', .ok v) →
      ∃ i, i ≤ 4095 ∧ Spec.OccursAt t B i := by
  intro fuel
  induction fuel with
  | zero => intro buf r; exact ⟨buf, List.prefix_rfl, fun t _ r' v h => by simp [garbageLoopN] at h⟩
  | succ fuel ih =>
    intro buf r
    have now : ∀ t : Bytes, t.length = 16 → ∀ h' n, HsSentVersion.receiveGarbage ⟨m, role, c, t⟩ buf = .ok (.foundGarbage h' n) →
        ∀ more, ∃ i, i ≤ 4095 ∧ Spec.OccursAt t (buf ++ more) i := by
      intro t ht h' n hf more
      obtain ⟨i, hi, ⟨pre, post, ho, hp⟩, -⟩ := (C21_found _ ht _ _ _).1 hf
      exact ⟨i, hi, pre, post ++ more, by rw [ho]; simp, hp⟩
    have stop : (∀ t : Bytes, t.length = 16 → ∀ r' v, garbageLoopN (fuel + 1) N ⟨m, role, c, t⟩ buf r = some (r', .ok v) →
        ∃ h' n, HsSentVersion.receiveGarbage ⟨m, role, c, t⟩ buf = .ok (.foundGarbage h' n)) →
        ∃ B, buf <+: B ∧ ∀ t : Bytes, t.length = 16 → ∀ r' v, garbageLoopN (fuel + 1) N ⟨m, role, c, t⟩ buf r = some (r', .ok v) →
          ∃ i, i ≤ 4095 ∧ Spec.OccursAt t B i := by
      intro hs
      refine ⟨buf, List.prefix_rfl, fun t ht r' v h => ?_⟩
      obtain ⟨h', n, hf⟩ := hs t ht r' v h
      simpa using now t ht h' n hf []
    rcases hr : N.readRun r 256 with _ | ⟨r1, (_ | ⟨b, bs⟩) | k⟩
    · refine stop fun t ht r' v h => ?_
      rw [garbageLoopN] at h
      rcases hg : HsSentVersion.receiveGarbage ⟨m, role, c, t⟩ buf with (⟨h', n⟩ | h') | e | _ <;> simp only [hg, hr] at h
      · exact ⟨h', n, rfl⟩
      all_goals simp at h
    · refine stop fun t ht r' v h => ?_
      rw [garbageLoopN] at h
      rcases hg : HsSentVersion.receiveGarbage ⟨m, role, c, t⟩ buf with (⟨h', n⟩ | h') | e | _ <;> simp only [hg, hr] at h
      · exact ⟨h', n, rfl⟩
      all_goals simp at h
    · obtain ⟨B, ⟨more, hB⟩, hw⟩ := ih (buf ++ b :: bs) r1
      refine ⟨B, ⟨b :: bs ++ more, by rw [← hB]; simp⟩, fun t ht r' v h => ?_⟩
      rw [garbageLoopN] at h
      rcases hg : HsSentVersion.receiveGarbage ⟨m, role, c, t⟩ buf with (⟨h', n⟩ | h') | e | _ <;> simp only [hg, hr] at h
      · rw [← hB, List.append_assoc]
        exact now t ht h' n hg _
      · obtain ⟨rfl, -, -⟩ := (C21_need_more _ ht _ _).1 hg
        exact hw t ht r' v h
      all_goals simp at h
    · refine stop fun t ht r' v h => ?_
      rw [garbageLoopN] at h
      rcases hg : HsSentVersion.receiveGarbage ⟨m, role, c, t⟩ buf with (⟨h', n⟩ | h') | e | _ <;> simp only [hg, hr] at h
      · exact ⟨h', n, rfl⟩
      all_goals simp at h

/-- Whatever the transport does, all terminators with which the handshake could end well occur in one string. -/
theorem handshakeN_windows (A : ApiN) (N : Conn σ) (P : Prims) (prof : Profile) (magic : Bytes) (role : Role) (rng : Bytes)
    (g : Option Bytes) (d : Option (List Bytes)) (r : ConnRun σ) (own : Fin (2 ^ 128)) (fuel : Nat) :
    ∃ B, ∀ peer r' v, handshakeN fuel A N (Spec.withTerminators P (Spec.drawnFor role own peer)) prof magic role rng g d r = some (r', .ok v) →
      ∃ i, i ≤ 4095 ∧ Spec.OccursAt (leBytes 16 peer.val) B i := by
  have never : ∀ {F : Fin (2 ^ 128) → Option (ConnRun σ × Outcome ProtocolError (InboundCipher × OutboundCipher × A.Sess))},
      (∀ peer r' v, F peer ≠ some (r', .ok v)) →
      ∃ B, ∀ peer r' v, F peer = some (r', .ok v) → ∃ i, i ≤ 4095 ∧ Spec.OccursAt (leBytes 16 peer.val) B i :=
    fun h => ⟨[], fun peer r' v hv => absurd hv (h peer r' v)⟩
  unfold handshakeN
  have hn : ∀ t, HsInitialized.newWithRng (Spec.withTerminators P t) prof magic role rng = HsInitialized.newWithRng P prof magic role rng :=
    fun _ => rfl
  simp only [hn]
  rcases h1 : HsInitialized.newWithRng P prof magic role rng with h0 | e | _
  rotate_left
  · exact never fun _ _ _ h => by simp at h
  · exact never fun _ _ _ h => by simp at h
  have hrole : h0.role = role := by
    unfold HsInitialized.newWithRng at h1
    repeat' split at h1
    all_goals first | (simp at h1; done) | skip
    simp only [Outcome.ok.injEq] at h1
    rw [← h1]
  simp only [handshakeWithInitializedN]
  rcases h2 : h0.sendKey g (zeros (HsInitialized.sendKeyLen g)) with ⟨kb, hk | e | _⟩
  rotate_left
  · exact never fun _ _ _ h => by simp at h
  · exact never fun _ _ _ h => by simp at h
  have hrole2 : hk.role = role := by
    unfold HsInitialized.sendKey at h2
    by_cases hg : g.any (fun g => decide (g.length > MAX_NUM_GARBAGE_BYTES)) = true
    · rw [if_pos hg] at h2
      simp at h2
    · rw [if_neg hg] at h2
      simp only at h2
      split at h2
      · simp at h2
      · simp only [Prod.mk.injEq, Outcome.ok.injEq] at h2
        rw [← h2.2, ← hrole]
  simp only
  rcases N.send fuel A.retry r kb with _ | ⟨r1, k | _⟩
  · exact never fun _ _ _ h => by simp at h
  · exact never fun _ _ _ h => by simp at h
  simp only
  rcases readExactN fuel N.readRun A.retry r1 NUM_ELLIGATOR_SWIFT_BYTES [] with _ | ⟨r2, k | key⟩
  · exact never fun _ _ _ h => by simp at h
  · exact never fun _ _ _ h => by simp at h
  simp only
  rcases receiveKey_withTerminators P hk key with ⟨e, he⟩ | ⟨k, he⟩
  · exact never fun _ _ _ h => by simp [he] at h
  simp only [he, hrole2]
  rcases sendVersion_withTerminators P prof hk.magic role k hk.localGarbage (zeros (HsReceivedKey.sendVersionLen d)) d own with
    ⟨b, e, hv⟩ | ⟨b, hv⟩ | ⟨b, c, hv⟩
  · exact never fun _ _ _ h => by simp [hv] at h
  · exact never fun _ _ _ h => by simp [hv] at h
  simp only [hv]
  rcases N.send fuel A.retry r2 b with _ | ⟨r3, k | _⟩
  · exact never fun _ _ _ h => by simp at h
  · exact never fun _ _ _ h => by simp at h
  simp only
  rcases readExactN fuel N.readRun A.retry r3 NUM_GARBAGE_TERMINATOR_BYTES [] with _ | ⟨r4, k | buf⟩
  · exact never fun _ _ _ h => by simp at h
  · exact never fun _ _ _ h => by simp at h
  simp only
  obtain ⟨B, -, hB⟩ := garbageLoopN_windows N hk.magic role c fuel buf r4
  refine ⟨B, fun peer r' v h => ?_⟩
  rcases hl : garbageLoopN fuel N ⟨hk.magic, role, c, leBytes 16 peer.val⟩ buf r4 with _ | ⟨r5, w | e | _⟩ <;> simp only [hl] at h
  · simp at h
  · exact hB _ (leBytes_length ..) _ _ hl
  all_goals simp at h

/-! ## Counting -/

theorem windows_count (B : Bytes) (S : Finset (Fin (2 ^ 128))) (hS : ∀ t ∈ S, ∃ i, i ≤ 4095 ∧ Spec.OccursAt (leBytes 16 t.val) B i) :
    S.card ≤ 4096 := by
  choose f hf1 hf2 using hS
  classical
  let F : Fin (2 ^ 128) → Nat := fun t => if ht : t ∈ S then f t ht else 0
  have := Finset.card_le_card_of_injOn (s := S) (t := Finset.range 4096) F (fun t ht => by
    simp only [F, Finset.mem_coe] at ht ⊢
    rw [dif_pos ht]
    exact Finset.mem_range.2 (Nat.lt_succ_of_le (hf1 t ht))) (fun t ht u hu he => by
    simp only [F, Finset.mem_coe] at ht hu he
    rw [dif_pos ht, dif_pos hu] at he
    obtain ⟨p1, q1, e1, l1⟩ := hf2 t ht
    obtain ⟨p2, q2, e2, l2⟩ := hf2 u hu
    have h3 : p1 ++ (leBytes 16 t.val ++ q1) = p2 ++ (leBytes 16 u.val ++ q2) := by
      rw [← List.append_assoc, ← List.append_assoc, ← e1, ← e2]
    have h4 := (List.append_inj h3 (by rw [l1, l2, he])).2
    have h5 := (List.append_inj h4 (by simp)).1
    exact Fin.ext (leBytes_inj (by simp) (by simp) h5))
  simpa using this

/-- The handshake ends well, for some number of steps of its loops. -/
def HandshakeEnds (A : ApiN) (N : Conn σ) (P : Prims) (prof : Profile) (magic : Bytes) (role : Role) (rng : Bytes) (g : Option Bytes)
    (d : Option (List Bytes)) (r : ConnRun σ) : Prop :=
  ∃ fuel r' v, handshakeN fuel A N P prof magic role rng g d r = some (r', .ok v)

/-- C86: of the 2^128 terminators it may wait for, at most 4096 let the handshake end well with a peer that does not know which it is.
The peer and the transport are any program (`N`), which sees all that is sent and knows everything else. -/
theorem C86_blind (A : ApiN) (N : Conn σ) (P : Prims) (prof : Profile) (magic : Bytes) (role : Role) (rng : Bytes)
    (g : Option Bytes) (d : Option (List Bytes)) (r : ConnRun σ) (own : Fin (2 ^ 128))
    [DecidablePred fun peer => HandshakeEnds A N (Spec.withTerminators P (Spec.drawnFor role own peer)) prof magic role rng g d r] :
    (Finset.univ.filter fun peer =>
      HandshakeEnds A N (Spec.withTerminators P (Spec.drawnFor role own peer)) prof magic role rng g d r).card ≤ 4096 := by
  obtain ⟨S, hS⟩ : ∃ S, S = Finset.univ.filter fun peer =>
      HandshakeEnds A N (Spec.withTerminators P (Spec.drawnFor role own peer)) prof magic role rng g d r := ⟨_, rfl⟩
  rw [← hS]
  have h : ∀ t ∈ S, HandshakeEnds A N (Spec.withTerminators P (Spec.drawnFor role own t)) prof magic role rng g d r := by
    intro t ht
    rw [hS] at ht
    exact (Finset.mem_filter.1 ht).2
  choose f r' v hf using h
  classical
  let F : Fin (2 ^ 128) → Nat := fun t => if ht : t ∈ S then f t ht else 0
  obtain ⟨B, hB⟩ := handshakeN_windows A N P prof magic role rng g d r own (S.sup F)
  refine windows_count B S fun t ht => hB t (r' t ht) (v t ht) ?_
  refine (handshakeN_stays (P := Spec.withTerminators P (Spec.drawnFor role own t)) A N magic role rng g d r).le ?_ (hf t ht)
  have := Finset.le_sup (f := F) ht
  simpa only [F, dif_pos ht] using this

set_option linter.constructorNameAsVariable false in
/-- C86: of all pairs of terminators less than one in 2^115 lets it end well, also if the peer knows the terminator of the library. -/
theorem C86_chance (A : ApiN) (N : Fin (2 ^ 128) → Conn σ) (P : Prims) (prof : Profile) (magic : Bytes) (role : Role) (rng : Bytes)
    (g : Option Bytes) (d : Option (List Bytes)) (r : Fin (2 ^ 128) → ConnRun σ)
    [DecidablePred fun t : Fin (2 ^ 128) × Fin (2 ^ 128) =>
      HandshakeEnds A (N t.1) (Spec.withTerminators P (Spec.drawnFor role t.1 t.2)) prof magic role rng g d (r t.1)] :
    (Finset.univ.filter fun t : Fin (2 ^ 128) × Fin (2 ^ 128) =>
      HandshakeEnds A (N t.1) (Spec.withTerminators P (Spec.drawnFor role t.1 t.2)) prof magic role rng g d (r t.1)).card * 2 ^ 115 <
      Fintype.card (Fin (2 ^ 128) × Fin (2 ^ 128)) := by
  classical
  have h := Finset.card_le_mul_card_image (f := Prod.fst) (Finset.univ.filter fun t : Fin (2 ^ 128) × Fin (2 ^ 128) =>
      HandshakeEnds A (N t.1) (Spec.withTerminators P (Spec.drawnFor role t.1 t.2)) prof magic role rng g d (r t.1)) 4096 (fun own _ => by
    refine le_trans ?_ (C86_blind A (N own) P prof magic role rng g d (r own) own)
    refine Finset.card_le_card_of_injOn Prod.snd (fun t ht => ?_) (fun t ht u hu he => ?_)
    · simp only [Finset.coe_filter, Finset.mem_filter, Finset.mem_univ, true_and, Set.mem_ofPred_eq] at ht ⊢
      obtain ⟨h1, rfl⟩ := ht
      exact h1
    · simp only [Finset.coe_filter, Finset.mem_filter, Finset.mem_univ, true_and, Set.mem_ofPred_eq] at ht hu
      exact Prod.ext (ht.2.trans hu.2.symm) he)
  have h2 := Finset.card_le_univ ((Finset.univ.filter fun t : Fin (2 ^ 128) × Fin (2 ^ 128) =>
      HandshakeEnds A (N t.1) (Spec.withTerminators P (Spec.drawnFor role t.1 t.2)) prof magic role rng g d (r t.1)).image Prod.fst)
  rw [Fintype.card_fin] at h2
  rw [Fintype.card_prod, Fintype.card_fin]
  generalize (Finset.univ.filter fun t : Fin (2 ^ 128) × Fin (2 ^ 128) =>
      HandshakeEnds A (N t.1) (Spec.withTerminators P (Spec.drawnFor role t.1 t.2)) prof magic role rng g d (r t.1)).card = n at h ⊢
  have h3 := le_trans h (Nat.mul_le_mul_left 4096 h2)
  omega

/-! ## Reflection and playback -/

/-- A peer that sends back what it is sent.  (State: what was taken and not yet given back.) -/
def echoConn : Conn Bytes where
  read s n := if s = [] then none else some (s.drop n, .ok (s.take n))
  write s b := some (s ++ b, .ok b.length)
  flush s := some (s, .ok ())

open Classical in
/-- C86: reflection. -/
theorem C86_reflection (A : ApiN) (P : Prims) (prof : Profile) (magic : Bytes) (role : Role) (rng : Bytes) (g : Option Bytes)
    (d : Option (List Bytes)) :
    (Finset.univ.filter fun t : Fin (2 ^ 128) × Fin (2 ^ 128) =>
      HandshakeEnds A echoConn (Spec.withTerminators P (Spec.drawnFor role t.1 t.2)) prof magic role rng g d ⟨[], [], []⟩).card * 2 ^ 115 <
      Fintype.card (Fin (2 ^ 128) × Fin (2 ^ 128)) :=
  C86_chance A (fun _ => echoConn) P prof magic role rng g d (fun _ => ⟨[], [], []⟩)

open Classical in
/-- C86: playback of anything that was ever recorded, with any timing and failures. -/
theorem C86_playback (A : ApiN) (P : Prims) (prof : Profile) (magic : Bytes) (role : Role) (rng : Bytes) (g : Option Bytes)
    (d : Option (List Bytes)) (src : Source) (w : Sink) :
    (Finset.univ.filter fun t : Fin (2 ^ 128) × Fin (2 ^ 128) =>
      HandshakeEnds A scriptConn.toConn (Spec.withTerminators P (Spec.drawnFor role t.1 t.2)) prof magic role rng g d
        ⟨(src, w), [], []⟩).card * 2 ^ 115 < Fintype.card (Fin (2 ^ 128) × Fin (2 ^ 128)) :=
  C86_chance A (fun _ => scriptConn.toConn) P prof magic role rng g d (fun _ => ⟨(src, w), [], []⟩)

/-- What an honest responder with the terminators 5 and 9 sends to this initiator. -/
def recorded : Bytes :=
  wireR (Spec.withTerminators toy (5, 9)) [1, 2, 3, 4] (leBytes 32 77) (leBytes 32 99) (some [42, 42]) (some [[1, 2, 3]])

/-- How the handshake ends over a script or the echo. -/
def endsWell {α ε : Type} (x : Option (α × Outcome ε (InboundCipher × OutboundCipher × (Bytes × Bool)))) : Option Bool :=
  x.map fun y => match y.2 with | .ok _ => true | _ => false

/-- The right terminator is one of the few: with it the recorded bytes are accepted, so that the theorem is not about an empty set. -/
example : endsWell (handshakeN 200 syncN scriptConn.toConn (Spec.withTerminators toy (Spec.drawnFor .initiator 5 9)) .debug [1, 2, 3, 4]
    .initiator (leBytes 32 77) none none ⟨([.data recorded], ⟨[], [], []⟩), [], []⟩) = some true := by decide +kernel

/-- With another they are not. -/
example : endsWell (handshakeN 200 syncN scriptConn.toConn (Spec.withTerminators toy (Spec.drawnFor .initiator 5 10)) .debug [1, 2, 3, 4]
    .initiator (leBytes 32 77) none none ⟨([.data recorded], ⟨[], [], []⟩), [], []⟩) = some false := by decide +kernel

/-- Over the echo the search goes on until the echo has nothing more to say.  Even if the reflected terminator happens to be the one
waited for, the keys are those of the other direction: here the length of the first packet is read as too long. -/
example : endsWell (handshakeN 200 syncN echoConn (Spec.withTerminators toy (Spec.drawnFor .initiator 5 6)) .debug [1, 2, 3, 4]
      .initiator (leBytes 32 77) (some [42]) none ⟨[], [], []⟩) = none ∧
    endsWell (handshakeN 200 syncN echoConn (Spec.withTerminators toy (Spec.drawnFor .initiator 5 5)) .debug [1, 2, 3, 4]
      .initiator (leBytes 32 77) (some [42]) none ⟨[], [], []⟩) = none := by
  constructor <;> decide +kernel

end Bip324
