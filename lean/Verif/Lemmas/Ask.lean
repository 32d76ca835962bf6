import Verif.Props.Transcript

/-!
# What a reader asks of the AEAD

One call of a reader decides about at most one packet: it calls the AEAD's decryption at most once, on bytes
which do not depend on the answer.  Runs of a reader over two AEADs which differ in their decryption only are
therefore the same as long as the answers are.
-/

namespace Bip324

variable {P0 P' Q : Prims} {prof : Profile}

/-- Two AEADs over the same cipher: they may differ in the tags and in what they accept. -/
structure SameCipher (P Q : Prims) : Prop where
  ks : Q.ks = P.ks
  seal1 : ∀ k n a t, (Q.sealC k n a t).1 = (P.sealC k n a t).1

/-- The AEAD whose decryption always answers `o`. -/
def Prims.answering (P : Prims) (o : Option Bytes) : Prims := { P with openC := fun _ _ _ _ _ => o }

theorem SameCipher.refl (P : Prims) : SameCipher P P := ⟨rfl, fun _ _ _ _ => rfl⟩

theorem sameCipher_answering (P : Prims) (o : Option Bytes) : SameCipher P (P.answering o) :=
  ⟨rfl, fun _ _ _ _ => rfl⟩

theorem SameCipher.rekey (h : SameCipher P0 P') (c : FSAead) (aad : Bytes) :
    c.rekey P' prof aad = c.rekey P0 prof aad := by
  unfold FSAead.rekey
  rw [h.seal1]

theorem SameCipher.packetKey (h : SameCipher P0 P') (k : Bytes) (e : Nat) :
    Spec.packetKey P' k e = Spec.packetKey P0 k e := by
  induction e with
  | zero => rfl
  | succ e ih => simp only [Spec.packetKey, ih, h.seal1]

theorem SameCipher.at (h : SameCipher P0 P') {k : Bytes} {n : Nat} {c : FSAead} :
    c.At P' k n ↔ c.At P0 k n := by
  unfold FSAead.At
  rw [h.packetKey]

theorem SameCipher.lengthMask (h : SameCipher P0 P') (k : Bytes) (n : Nat) :
    Spec.lengthMask P' k n = Spec.lengthMask P0 k n := by
  have hk : ∀ e, Spec.lengthKey P' k e = Spec.lengthKey P0 k e := by
    intro e
    induction e with
    | zero => rfl
    | succ e ih => simp only [Spec.lengthKey, ih, h.ks]
  simp only [Spec.lengthMask, hk, h.ks]

theorem SameCipher.decryptPacketLen (h : SameCipher P0 P') (c : InboundCipher) (lb : Bytes) :
    c.decryptPacketLen P' prof lb = c.decryptPacketLen P0 prof lb := by
  unfold InboundCipher.decryptPacketLen FSStream.crypt Prims.ksSlice
  rw [h.ks]

theorem rekey_at {kP : Bytes} {n : Nat} {c : FSAead} (h : c.At P0 kP n) (hn : n + 1 < 2 ^ 64) :
    ∃ c', c.rekey P0 prof [] = some c' ∧ c'.At P0 kP (n + 1) := by
  unfold FSAead.rekey
  rw [h.1, uadd_lt (by simpa [u64Mod] using hn)]
  refine ⟨_, rfl, rfl, ?_⟩
  simp only [REKEY_INTERVAL]
  rw [epoch_succ n]
  by_cases h0 : (n + 1) % 224 = 0
  · rw [if_pos h0, if_pos h0, Spec.packetKey, h.rekeyNonce, h.2]; rfl
  · rw [if_neg h0, if_neg h0]; exact h.2

/-- The part of a packet before its tag. -/
abbrev bodyOf (ct : Bytes) : Bytes := ct.take (ct.length - NUM_TAG_BYTES)
/-- The tag of a packet. -/
abbrev tagOf (ct : Bytes) : Bytes := ct.drop (ct.length - NUM_TAG_BYTES)

theorem decrypt_asks (h : SameCipher P0 P') (c : InboundCipher) (ct : Bytes) :
    c.decrypt P' prof ct (zeros (ct.length - 16)) none
      = c.decrypt (P0.answering
          (P'.openC c.packetCipher.key c.packetCipher.nonce [] (bodyOf ct) (tagOf ct))) prof ct
          (zeros (ct.length - 16)) none := by
  have hsl : slice (writeAt (zeros (ct.length - 16)) 0 (ct.take (ct.length - NUM_TAG_BYTES))) 0
      (ct.take (ct.length - NUM_TAG_BYTES)).length = ct.take (ct.length - NUM_TAG_BYTES) := by
    simp [slice, writeAt]
  have hd : c.packetCipher.decrypt P' prof [] (ct.take (ct.length - NUM_TAG_BYTES))
        (ct.drop (ct.length - NUM_TAG_BYTES))
      = c.packetCipher.decrypt (P0.answering
          (P'.openC c.packetCipher.key c.packetCipher.nonce [] (bodyOf ct) (tagOf ct))) prof []
          (ct.take (ct.length - NUM_TAG_BYTES)) (ct.drop (ct.length - NUM_TAG_BYTES)) := by
    unfold FSAead.decrypt
    rw [h.rekey, (sameCipher_answering P0 _).rekey]
    rfl
  unfold InboundCipher.decrypt
  simp only [hsl, Option.getD_none, hd]

theorem decrypt_none (c : InboundCipher) (ct : Bytes) (hct : 17 ≤ ct.length) :
    ∃ buf, c.decrypt (P0.answering none) prof ct (zeros (ct.length - 16)) none = (c, buf, .err .decryption) := by
  unfold InboundCipher.decrypt
  rw [if_neg (show ¬ ct.length < NUM_TAG_BYTES + NUM_HEADER_BYTES from (by show ¬ ct.length < 17; omega))]
  simp only []
  rw [if_neg (by simp [zeros, NUM_TAG_BYTES])]
  exact ⟨_, rfl⟩

theorem decrypt_some {c : InboundCipher} {ct : Bytes} (hct : 17 ≤ ct.length) {c' : FSAead}
    (hc : c.packetCipher.rekey P0 prof [] = some c') (b : UInt8) (bs : Bytes)
    (hl : (b :: bs).length = (bodyOf ct).length) :
    c.decrypt (P0.answering (some (b :: bs))) prof ct (zeros (ct.length - 16)) none
      = ({ c with packetCipher := c' }, b :: bs, .ok (PacketType.fromByte b)) := by
  have hlen : (bodyOf ct).length = ct.length - 16 := by simp [bodyOf, NUM_TAG_BYTES]
  have hw : writeAt (writeAt (zeros (ct.length - 16)) 0 (ct.take (ct.length - NUM_TAG_BYTES))) 0 (b :: bs)
      = b :: bs := by
    have hlen' : (ct.take (ct.length - NUM_TAG_BYTES)).length = ct.length - 16 := hlen
    simp only [writeAt, List.take_zero, List.nil_append, Nat.zero_add]
    rw [List.drop_of_length_le (l := zeros (ct.length - 16)) (by simp [zeros, hlen']), List.append_nil,
      List.drop_of_length_le (by omega), List.append_nil]
  have hd : ∀ x y, c.packetCipher.decrypt (P0.answering (some (b :: bs))) prof [] x y = .ok c' (b :: bs) := by
    intro x y
    unfold FSAead.decrypt
    rw [(sameCipher_answering P0 _).rekey, hc]
    rfl
  unfold InboundCipher.decrypt
  rw [if_neg (show ¬ ct.length < NUM_TAG_BYTES + NUM_HEADER_BYTES from (by show ¬ ct.length < 17; omega))]
  simp only []
  rw [if_neg (by simp [zeros, NUM_TAG_BYTES])]
  simp only [Option.getD_none, hd, hw]

/-! ## Machines which ask at most once in a step -/

/-- One call of a reader: the new state, and the result if there is one. -/
abbrev StepOf (σ : Type) : Type := Prims → σ → σ × Option (Outcome ProtocolError Payload)

/-- The result is not a payload and the packet cipher is where it was. -/
def Quiet {σ : Type} (pc : σ → FSAead) (s : σ) (x : σ × Option (Outcome ProtocolError Payload)) : Prop :=
  (∀ p, x.2 ≠ some (.ok p)) ∧ pc x.1 = pc s

/-- In state `s` the reader asks the AEAD at most once. -/
def AsksOnce {σ : Type} (P0 : Prims) (prof : Profile) (step : StepOf σ) (pc : σ → FSAead) (good : σ → Prop)
    (s : σ) : Prop :=
  (∃ x, (∀ P', SameCipher P0 P' → step P' s = x) ∧ Quiet pc s x ∧ good x.1) ∨
  (∃ ct tag, 0 < ct.length ∧ ct.length ≤ 2 ^ 24 ∧ tag.length = 16 ∧
    (∀ P', SameCipher P0 P' →
      step P' s = step (P0.answering (P'.openC (pc s).key (pc s).nonce [] ct tag)) s) ∧
    Quiet pc s (step (P0.answering none) s) ∧
    (∀ o, good (step (P0.answering o) s).1) ∧
    ∀ c' b bs, (pc s).rekey P0 prof [] = some c' → (b :: bs).length = ct.length →
      (step (P0.answering (some (b :: bs))) s).2 = some (.ok (.decrypted (b :: bs))) ∧
      pc (step (P0.answering (some (b :: bs))) s).1 = c')

/-- The results of `k` steps. -/
def resultsOf {σ : Type} (step : StepOf σ) (P : Prims) : Nat → σ → List (Outcome ProtocolError Payload)
  | 0, _ => []
  | k + 1, s =>
    match step P s with
    | (s', none) => resultsOf step P k s'
    | (s', some x) => x :: resultsOf step P k s'

theorem resultsOf_succ {σ : Type} (step : StepOf σ) (P : Prims) (k : Nat) (s : σ) :
    resultsOf step P (k + 1) s =
      match (step P s).2 with
      | none => resultsOf step P k (step P s).1
      | some y => y :: resultsOf step P k (step P s).1 := by
  rw [resultsOf]
  cases step P s with
  | mk x1 x2 => cases x2 <;> rfl

/-- The packet number, its ciphertext and its tag. -/
structure Attempt where
  number : Nat
  body : Bytes
  tag : Bytes

/-- What the AEAD says about an attempt. -/
def Attempt.ask (P0 : Prims) (kP : Bytes) (P : Prims) (a : Attempt) : Option Bytes :=
  P.openC (Spec.packetKey P0 kP (a.number / 224)) (Spec.packetNonce a.number) [] a.body a.tag

theorem payloads_cons_quiet {x : Outcome ProtocolError Payload} (h : ∀ p, x ≠ .ok p)
    (xs : List (Outcome ProtocolError Payload)) : payloads (x :: xs) = payloads xs := by
  cases x with
  | ok p => exact absurd rfl (h p)
  | err e => rfl
  | panic => rfl

/-- Against an AEAD `Q` which accepts nothing but what was sent, a reader delivers a front part of what was
sent; and it does the same against any AEAD which answers the at most `k` questions of this run in the same
way. -/
theorem ideal_run {σ : Type} {step : StepOf σ} {pc : σ → FSAead} {good : σ → Prop} {kP : Bytes} {n : Nat}
    {sent : List (UInt8 × Bytes)}
    (hask : ∀ s, good s → AsksOnce P0 prof step pc good s)
    (hQ : SameCipher P0 Q)
    (hsent : ∀ a : Attempt, ∀ plain, n ≤ a.number → a.number < 2 ^ 64 → a.ask P0 kP Q = some plain →
      plain.length = a.body.length ∧ ∃ m, sent[a.number - n]? = some m ∧ plain = m.1 :: m.2)
    (k : Nat) : ∀ (j : Nat) (s : σ), good s → (pc s).At P0 kP (n + j) → n + j + k < 2 ^ 64 →
      ∃ atts : List Attempt, atts.length ≤ k ∧
        (∀ a ∈ atts, n ≤ a.number ∧ a.number < n + j + k ∧ a.body.length ≤ 2 ^ 24 ∧ a.tag.length = 16) ∧
        (∃ l, l <+: sent.drop j ∧ payloads (resultsOf step Q k s) = l.map delivered) ∧
        ∀ P', SameCipher P0 P' → (∀ a ∈ atts, a.ask P0 kP P' = a.ask P0 kP Q) →
          resultsOf step P' k s = resultsOf step Q k s := by
  induction k with
  | zero =>
    intro j s _ _ _
    exact ⟨[], Nat.le_refl 0, by simp, ⟨[], List.nil_prefix, rfl⟩, fun _ _ _ => rfl⟩
  | succ k ih =>
    intro j s hg hat hn
    rcases hask s hg with ⟨x, hx, hq, hg'⟩ | ⟨ct, tag, hc0, hc1, ht, hstep, hnone, hgood, hsome⟩
    · -- nothing is asked
      obtain ⟨atts, h1, h2, ⟨l, hl, h3⟩, h4⟩ := ih j x.1 hg' (by rw [hq.2]; exact hat) (by omega)
      have hres : ∀ P', SameCipher P0 P' → resultsOf step P' (k + 1) s =
          match x.2 with
          | none => resultsOf step P' k x.1
          | some y => y :: resultsOf step P' k x.1 := by
        intro P' hP'
        rw [resultsOf_succ, hx P' hP']
      refine ⟨atts, by omega, fun a ha => ?_, ⟨l, hl, ?_⟩, ?_⟩
      · obtain ⟨a1, a2, a3, a4⟩ := h2 a ha
        exact ⟨a1, by omega, a3, a4⟩
      · rw [hres Q hQ, ← h3]
        cases hy : x.2 with
        | none => rfl
        | some y => exact payloads_cons_quiet (fun p hp => hq.1 p (by rw [hy, hp])) _
      · intro P' hP' hag
        rw [hres P' hP', hres Q hQ, h4 P' hP' hag]
    · -- one question
      let a0 : Attempt := ⟨n + j, ct, tag⟩
      have hask0 : ∀ P', P'.openC (pc s).key (pc s).nonce [] ct tag = a0.ask P0 kP P' := by
        intro P'
        simp only [Attempt.ask, a0]
        rw [hat.2, hat.nonce]
      have hstep' : ∀ P', SameCipher P0 P' → step P' s = step (P0.answering (a0.ask P0 kP P')) s := by
        intro P' hP'
        rw [hstep P' hP', hask0]
      have hres : ∀ P', SameCipher P0 P' → a0.ask P0 kP P' = a0.ask P0 kP Q → resultsOf step P' (k + 1) s =
          match (step (P0.answering (a0.ask P0 kP Q)) s).2 with
          | none => resultsOf step P' k (step (P0.answering (a0.ask P0 kP Q)) s).1
          | some y => y :: resultsOf step P' k (step (P0.answering (a0.ask P0 kP Q)) s).1 := by
        intro P' hP' he
        have hs := hstep' P' hP'
        rw [he] at hs
        rw [resultsOf_succ, hs]
      have hbound : a0.body.length ≤ 2 ^ 24 ∧ a0.tag.length = 16 := ⟨hc1, ht⟩
      cases ho : a0.ask P0 kP Q with
      | none =>
        rw [ho] at hres
        obtain ⟨atts, h1, h2, ⟨l, hl, h3⟩, h4⟩ := ih j _ (hgood none) (by rw [hnone.2]; exact hat) (by omega)
        refine ⟨a0 :: atts, by rw [List.length_cons]; omega, fun a ha => ?_, ⟨l, hl, ?_⟩, ?_⟩
        · rcases List.mem_cons.1 ha with rfl | ha
          · exact ⟨Nat.le_add_right _ _, by simp only [a0]; omega, hbound⟩
          · obtain ⟨a1, a2, a3, a4⟩ := h2 a ha
            exact ⟨a1, by omega, a3, a4⟩
        · rw [hres Q hQ ho, ← h3]
          cases hy : (step (P0.answering none) s).2 with
          | none => rfl
          | some y => exact payloads_cons_quiet (fun p hp => hnone.1 p (by rw [hy, hp])) _
        · intro P' hP' hag
          have h0 := hag a0 (by simp)
          rw [ho] at h0
          rw [hres P' hP' h0, hres Q hQ ho, h4 P' hP' (fun a ha => hag a (by simp [ha]))]
      | some plain =>
        rw [ho] at hres
        obtain ⟨hlen, m, hm, rfl⟩ := hsent a0 plain (Nat.le_add_right _ _) (by simp only [a0]; omega) ho
        obtain ⟨c', hrk, hat'⟩ := rekey_at (prof := prof) hat (by omega)
        obtain ⟨hx2, hx1⟩ := hsome c' m.1 m.2 hrk hlen
        obtain ⟨atts, h1, h2, ⟨l, hl, h3⟩, h4⟩ := ih (j + 1) _ (hgood (some (m.1 :: m.2)))
          (by rw [hx1]; exact hat') (by omega)
        have hm' : sent[j]? = some m := by
          rw [← hm]
          simp only [a0]
          rw [Nat.add_sub_cancel_left]
        refine ⟨a0 :: atts, by rw [List.length_cons]; omega, fun a ha => ?_, ⟨m :: l, ?_, ?_⟩, ?_⟩
        · rcases List.mem_cons.1 ha with rfl | ha
          · exact ⟨Nat.le_add_right _ _, by simp only [a0]; omega, hbound⟩
          · obtain ⟨a1, a2, a3, a4⟩ := h2 a ha
            exact ⟨a1, by omega, a3, a4⟩
        · obtain ⟨hj, hje⟩ := List.getElem?_eq_some_iff.1 hm'
          rw [List.drop_eq_getElem_cons hj, hje]
          exact List.prefix_cons_inj m |>.2 hl
        · rw [hres Q hQ ho, hx2]
          simp only [payloads, h3, List.map_cons]
          rfl
        · intro P' hP' hag
          have h0 := hag a0 (by simp)
          rw [ho] at h0
          rw [hres P' hP' h0, hres Q hQ ho, h4 P' hP' (fun a ha => hag a (by simp [ha]))]

/-! ## The two readers -/

/-- io.rs:525-537: one read. -/
def syncStep (prof : Profile) : StepOf SyncReader := fun P r =>
  match r.read P prof with
  | (r', x) => (r', some x)

/-- futures.rs:400-448: one poll. -/
def asyncStep (prof : Profile) : StepOf AsyncReader := fun P r =>
  match r.poll P prof with
  | (r', .pending) => (r', none)
  | (r', .ready x) => (r', some x)

theorem readMany_results (P : Prims) (k : Nat) : ∀ r : SyncReader,
    (r.readMany P prof k).2 = resultsOf (syncStep prof) P k r := by
  induction k with
  | zero => intro r; rfl
  | succ k ih => intro r; simp only [SyncReader.readMany, resultsOf, syncStep, ih]

/-- The number of polls among the events. -/
def pollsIn : List ReadEvent → Nat
  | [] => 0
  | .poll :: es => pollsIn es + 1
  | .cancel :: es => pollsIn es

theorem pollsIn_le (es : List ReadEvent) : pollsIn es ≤ es.length := by
  induction es with
  | nil => exact Nat.le_refl 0
  | cons e es ih => cases e <;> simp only [pollsIn, List.length_cons] <;> omega

theorem run_results (P : Prims) (es : List ReadEvent) : ∀ r : AsyncReader,
    (r.run P prof es).2 = resultsOf (asyncStep prof) P (pollsIn es) r := by
  induction es with
  | nil => intro r; rfl
  | cons e es ih =>
    intro r
    cases e with
    | cancel => simp only [AsyncReader.run, pollsIn, ih]
    | poll =>
      simp only [AsyncReader.run, pollsIn, resultsOf, asyncStep]
      cases hp : r.poll P prof with
      | mk r1 x => cases x <;> simp only [ih]

theorem decryptPacketLen_lt {P : Prims} {c c' : InboundCipher} {lb : Bytes} {len : Nat} (hl : lb.length ≤ 3)
    (h : c.decryptPacketLen P prof lb = (c', .ok len)) :
    17 ≤ len ∧ len ≤ 2 ^ 24 + 16 ∧ c'.packetCipher = c.packetCipher := by
  unfold InboundCipher.decryptPacketLen FSStream.crypt at h
  repeat' split at h
  all_goals first
    | (simp only [Prod.mk.injEq, reduceCtorEq, and_false] at h; done)
    | skip
  rename_i lc ln heq
  simp only [Prod.mk.injEq, Outcome.ok.injEq] at h
  obtain ⟨rfl, rfl⟩ := h
  have hln : ln.length ≤ 3 := by
    repeat' split at heq
    all_goals first
      | (cases heq; done)
      | (simp only [Option.some.injEq, Prod.mk.injEq] at heq
         obtain ⟨-, rfl⟩ := heq
         rw [xorBytes_length]
         omega)
  have h1 := leNat_lt ln
  have h2 : 256 ^ ln.length ≤ 256 ^ 3 := Nat.pow_le_pow_right (by omega) hln
  refine ⟨by simp [NUM_HEADER_BYTES, NUM_TAG_BYTES], ?_, rfl⟩
  simp only [NUM_HEADER_BYTES, NUM_TAG_BYTES]
  omega

theorem decryptPacketLen_packet {P : Prims} {c c' : InboundCipher} {lb : Bytes} {x : Outcome Error Nat}
    (h : c.decryptPacketLen P prof lb = (c', x)) : c'.packetCipher = c.packetCipher := by
  unfold InboundCipher.decryptPacketLen at h
  split at h <;> simp only [Prod.mk.injEq] at h <;> obtain ⟨rfl, -⟩ := h <;> rfl

theorem bufferLen_17 {ct : Bytes} (hct : 17 ≤ ct.length) :
    InboundCipher.decryptionBufferLen prof ct.length = some (ct.length - 16) := by
  unfold InboundCipher.decryptionBufferLen usub
  rw [if_pos (by show 16 ≤ _; omega)]

theorem body_length (ct : Bytes) : (bodyOf ct).length = ct.length - 16 := by
  simp [bodyOf, NUM_TAG_BYTES]

theorem tag_length {ct : Bytes} (h : 17 ≤ ct.length) : (tagOf ct).length = 16 := by
  simp only [tagOf, List.length_drop]
  show ct.length - (ct.length - 16) = 16
  omega

theorem decryptToVec_asks (h : SameCipher P0 P') (c : InboundCipher) (ct : Bytes) (hct : 17 ≤ ct.length) :
    c.decryptToVec P' prof ct none
      = c.decryptToVec (P0.answering
          (P'.openC c.packetCipher.key c.packetCipher.nonce [] (bodyOf ct) (tagOf ct))) prof ct none := by
  unfold InboundCipher.decryptToVec
  simp only [bufferLen_17 hct, decrypt_asks h c ct]

/-- The blocking reader asks at most once in a read. -/
theorem sync_asks (prof : Profile) (r : SyncReader) :
    AsksOnce P0 prof (syncStep prof) (fun r => r.cipher.packetCipher) (fun _ => True) r := by
  cases h1 : SyncSession.reader.readExact true r.reader NUM_LENGTH_BYTES with
  | mk s1 x1 =>
  have ht1 := sync_took _ _ h1
  cases x1 with
  | error k =>
    refine .inl ⟨(⟨r.cipher, s1⟩, some (.err (.fromIo k))), fun P' _ => ?_, ⟨by simp, rfl⟩, trivial⟩
    simp only [syncStep, SyncReader.read, h1]
  | ok lb =>
  obtain ⟨hlb, -⟩ := ht1.ok
  cases h2 : r.cipher.decryptPacketLen P0 prof lb with
  | mk c1 x2 =>
  have hc1 := decryptPacketLen_packet h2
  have h2' : ∀ P', SameCipher P0 P' → r.cipher.decryptPacketLen P' prof lb = (c1, x2) :=
    fun P' hP' => by rw [hP'.decryptPacketLen, h2]
  cases x2 with
  | panic =>
    refine .inl ⟨(⟨c1, s1⟩, some .panic), fun P' hP' => ?_, ⟨by simp, hc1⟩, trivial⟩
    simp only [syncStep, SyncReader.read, h1, h2' P' hP']
  | err e =>
    refine .inl ⟨(⟨c1, s1⟩, some (.err (.internal e))), fun P' hP' => ?_, ⟨by simp, hc1⟩, trivial⟩
    simp only [syncStep, SyncReader.read, h1, h2' P' hP']
  | ok len =>
  obtain ⟨hl1, hl2, -⟩ := decryptPacketLen_lt (by rw [hlb]; exact Nat.le_refl 3) h2
  cases h3 : SyncSession.reader.readExact true s1 len with
  | mk s2 x3 =>
  have ht2 := sync_took _ _ h3
  cases x3 with
  | error k =>
    refine .inl ⟨(⟨c1, s2⟩, some (.err (.fromIo k))), fun P' hP' => ?_, ⟨by simp, hc1⟩, trivial⟩
    simp only [syncStep, SyncReader.read, h1, h2' P' hP', h3]
  | ok ct =>
  obtain ⟨hct, -⟩ := ht2.ok
  have h17 : 17 ≤ ct.length := by omega
  have hread : ∀ P', SameCipher P0 P' → syncStep prof P' r =
      match c1.decryptToVec P' prof ct none with
      | (c, .panic) => (⟨c, s2⟩, some .panic)
      | (c, .err e) => (⟨c, s2⟩, some (.err (.internal e)))
      | (c, .ok (_, plaintextBuffer)) =>
        match Payload.mkDecrypted prof plaintextBuffer with
        | none => (⟨c, s2⟩, some .panic)
        | some p => (⟨c, s2⟩, some (.ok p)) := by
    intro P' hP'
    simp only [syncStep, SyncReader.read, h1, h2' P' hP', h3]
    cases c1.decryptToVec P' prof ct none with
    | mk c y =>
      cases y with
      | panic => rfl
      | err e => rfl
      | ok z =>
        obtain ⟨z1, z2⟩ := z
        simp only []
        cases Payload.mkDecrypted prof z2 <;> rfl
  by_cases hbig : ct.length - 16 > MAX_PACKET_SIZE_FOR_ALLOCATION
  · refine .inl ⟨(⟨c1, s2⟩, some (.err (.internal .packetTooBig))), fun P' hP' => ?_, ⟨by simp, hc1⟩, trivial⟩
    rw [hread P' hP']
    unfold InboundCipher.decryptToVec
    simp only [bufferLen_17 h17]
    rw [if_pos hbig]
  · refine .inr ⟨bodyOf ct, tagOf ct, ?_, ?_, tag_length h17, ?_, ?_, fun _ => trivial, ?_⟩
    · rw [body_length]; omega
    · rw [body_length]; omega
    · intro P' hP'
      rw [hread P' hP', hread _ (sameCipher_answering P0 _), decryptToVec_asks hP' c1 ct h17]
      simp only [hc1]
    · rw [hread _ (sameCipher_answering P0 _)]
      obtain ⟨buf, hd⟩ := decrypt_none (P0 := P0) (prof := prof) c1 ct h17
      have hv : c1.decryptToVec (P0.answering none) prof ct none = (c1, .err .decryption) := by
        unfold InboundCipher.decryptToVec
        simp only [bufferLen_17 h17]
        rw [if_neg hbig, hd]
      rw [hv]
      exact ⟨by simp, hc1⟩
    · intro c' b bs hrk hl
      rw [hread _ (sameCipher_answering P0 _)]
      have hd := decrypt_some (P0 := P0) (prof := prof) (c := c1) h17 (by rw [hc1]; exact hrk) b bs hl
      have hv : c1.decryptToVec (P0.answering (some (b :: bs))) prof ct none
          = ({ c1 with packetCipher := c' }, .ok (PacketType.fromByte b, b :: bs)) := by
        unfold InboundCipher.decryptToVec
        simp only [bufferLen_17 h17]
        rw [if_neg hbig, hd]
      rw [hv]
      simp only [mkDecrypted_cons]
      exact ⟨trivial, trivial⟩

/-- The buffers of the polled reader have the sizes the protocol has. -/
def AsyncReader.Sized (r : AsyncReader) : Prop :=
  match r.state with
  | .readingLength buf n => buf.length = 3 ∧ n ≤ buf.length
  | .readingPayload buf n => 17 ≤ buf.length ∧ buf.length ≤ 2 ^ 24 + 16 ∧ n ≤ buf.length

/-- The polled reader while it reads the payload. -/
theorem pollPayload_asks (prof : Profile) (c : InboundCipher) (s : AsyncSession) (buf : Bytes) (n : Nat)
    (h17 : 17 ≤ buf.length) (hmax : buf.length ≤ 2 ^ 24 + 16) (hn : n ≤ buf.length) :
    AsksOnce P0 prof (fun P (_ : AsyncReader) =>
        match AsyncReader.pollPayload P prof c s buf n with
        | (r', .pending) => (r', none)
        | (r', .ready x) => (r', some x))
      (fun r => r.cipher.packetCipher) AsyncReader.Sized ⟨c, s, .readingPayload buf n⟩ := by
  have hf := pollFill_spec s buf n hn
  cases hp : pollFill s buf n with
  | pending s' buf' n' =>
    rw [hp] at hf
    obtain ⟨a1, a2, -, -⟩ := hf
    refine .inl ⟨(⟨c, s', .readingPayload buf' n'⟩, none), fun P' _ => ?_, ⟨by simp, rfl⟩, ?_⟩
    · simp only [AsyncReader.pollPayload, hp]
    · simp only [AsyncReader.Sized]; omega
  | err s' buf' n' k =>
    rw [hp] at hf
    obtain ⟨a1, a2, -, -⟩ := hf
    refine .inl ⟨(⟨c, s', .readingPayload buf' n'⟩, some (.err (.fromIo k))), fun P' _ => ?_, ⟨by simp, rfl⟩, ?_⟩
    · simp only [AsyncReader.pollPayload, hp]
    · simp only [AsyncReader.Sized]; omega
  | full s' ct n' =>
    rw [hp] at hf
    obtain ⟨a1, a2, -, -⟩ := hf
    have h17' : 17 ≤ ct.length := by omega
    have hstep : ∀ P', (match AsyncReader.pollPayload P' prof c s buf n with
        | (r', .pending) => (r', (none : Option (Outcome ProtocolError Payload)))
        | (r', .ready x) => (r', some x)) =
        match c.decrypt P' prof ct (zeros (ct.length - 16)) none with
        | (c, _, .panic) => (⟨c, s', .readingPayload ct n'⟩, some .panic)
        | (c, _, .err e) => (⟨c, s', .readingPayload ct n'⟩, some (.err (.internal e)))
        | (c, plaintextBuffer, .ok _) =>
          match Payload.mkDecrypted prof plaintextBuffer with
          | none => (⟨c, s', .initReadingLength⟩, some .panic)
          | some p => (⟨c, s', .initReadingLength⟩, some (.ok p)) := by
      intro P'
      simp only [AsyncReader.pollPayload, hp, bufferLen_17 h17']
      cases c.decrypt P' prof ct (zeros (ct.length - 16)) none with
      | mk c2 y =>
        obtain ⟨y1, y2⟩ := y
        cases y2 with
        | panic => rfl
        | err e => rfl
        | ok z => simp only []; cases Payload.mkDecrypted prof y1 <;> rfl
    refine .inr ⟨bodyOf ct, tagOf ct, ?_, ?_, tag_length h17', ?_, ?_, ?_, ?_⟩
    · rw [body_length]; omega
    · rw [body_length]; omega
    · intro P' hP'
      simp only [hstep]
      rw [decrypt_asks hP' c ct]
    · simp only [hstep]
      obtain ⟨b', hd⟩ := decrypt_none (P0 := P0) (prof := prof) c ct h17'
      rw [hd]
      exact ⟨by simp, rfl⟩
    · intro o
      simp only [hstep]
      cases c.decrypt (P0.answering o) prof ct (zeros (ct.length - 16)) none with
      | mk c2 y =>
        obtain ⟨y1, y2⟩ := y
        cases y2 with
        | panic => simp only [AsyncReader.Sized]; omega
        | err e => simp only [AsyncReader.Sized]; omega
        | ok z =>
          simp only []
          cases Payload.mkDecrypted prof y1 <;>
            exact ⟨zeros_length 3, Nat.zero_le _⟩
    · intro c' b bs hrk hl
      simp only [hstep]
      have hd := decrypt_some (P0 := P0) (prof := prof) (c := c) h17' hrk b bs hl
      rw [hd]
      simp only [mkDecrypted_cons]
      exact ⟨trivial, trivial⟩

/-- The polled reader asks at most once in a poll. -/
theorem async_asks (prof : Profile) (r : AsyncReader) (hr : r.Sized) :
    AsksOnce P0 prof (asyncStep prof) (fun r => r.cipher.packetCipher) AsyncReader.Sized r := by
  obtain ⟨c, s, st⟩ := r
  cases st with
  | readingPayload buf n => exact pollPayload_asks prof c s buf n hr.1 hr.2.1 hr.2.2
  | readingLength buf n =>
    obtain ⟨hb, hn⟩ := hr
    have hf := pollFill_spec s buf n hn
    cases hp : pollFill s buf n with
    | pending s' buf' n' =>
      rw [hp] at hf
      obtain ⟨a1, a2, -, -⟩ := hf
      refine .inl ⟨(⟨c, s', .readingLength buf' n'⟩, none), fun P' _ => ?_, ⟨by simp, rfl⟩, ?_⟩
      · simp only [asyncStep, AsyncReader.poll, hp]
      · simp only [AsyncReader.Sized]; omega
    | err s' buf' n' k =>
      rw [hp] at hf
      obtain ⟨a1, a2, -, -⟩ := hf
      refine .inl ⟨(⟨c, s', .readingLength buf' n'⟩, some (.err (.fromIo k))), fun P' _ => ?_, ⟨by simp, rfl⟩, ?_⟩
      · simp only [asyncStep, AsyncReader.poll, hp]
      · simp only [AsyncReader.Sized]; omega
    | full s' lb n' =>
      rw [hp] at hf
      obtain ⟨a1, a2, -, -⟩ := hf
      cases h2 : c.decryptPacketLen P0 prof lb with
      | mk c1 x2 =>
      have hc1 := decryptPacketLen_packet h2
      have h2' : ∀ P', SameCipher P0 P' → c.decryptPacketLen P' prof lb = (c1, x2) :=
        fun P' hP' => by rw [hP'.decryptPacketLen, h2]
      cases x2 with
      | panic =>
        refine .inl ⟨(⟨c1, s', .readingLength lb n'⟩, some .panic), fun P' hP' => ?_, ⟨by simp, hc1⟩, ?_⟩
        · simp only [asyncStep, AsyncReader.poll, hp, h2' P' hP']
        · simp only [AsyncReader.Sized]; omega
      | err e =>
        refine .inl ⟨(⟨c1, s', .readingLength lb n'⟩, some (.err (.internal e))), fun P' hP' => ?_,
          ⟨by simp, hc1⟩, ?_⟩
        · simp only [asyncStep, AsyncReader.poll, hp, h2' P' hP']
        · simp only [AsyncReader.Sized]; omega
      | ok len =>
      obtain ⟨hl1, hl2, -⟩ := decryptPacketLen_lt (by omega) h2
      have hstep : ∀ P', SameCipher P0 P' → asyncStep prof P' ⟨c, s, .readingLength buf n⟩ =
          match AsyncReader.pollPayload P' prof c1 s' (zeros len) 0 with
          | (r', .pending) => (r', none)
          | (r', .ready x) => (r', some x) := by
        intro P' hP'
        simp only [asyncStep, AsyncReader.poll, hp, h2' P' hP']
      have hpay := pollPayload_asks (P0 := P0) prof c1 s' (zeros len) 0 (by rw [zeros_length]; exact hl1)
        (by rw [zeros_length]; exact hl2) (Nat.zero_le _)
      rcases hpay with ⟨x, hx, hq, hg⟩ | ⟨ct, tag, b1, b2, b3, b4, b5, b6, b7⟩
      · refine .inl ⟨x, fun P' hP' => ?_, ⟨hq.1, ?_⟩, hg⟩
        · rw [hstep P' hP']; exact hx P' hP'
        · rw [hq.2]; exact hc1
      · refine .inr ⟨ct, tag, b1, b2, b3, ?_, ?_, ?_, ?_⟩
        · intro P' hP'
          rw [hstep P' hP', hstep _ (sameCipher_answering P0 _)]
          have := b4 P' hP'
          simp only [hc1] at this
          exact this
        · rw [hstep _ (sameCipher_answering P0 _)]
          refine ⟨b5.1, ?_⟩
          rw [b5.2]
          exact hc1
        · intro o
          rw [hstep _ (sameCipher_answering P0 _)]
          exact b6 o
        · intro c' b bs hrk hl
          rw [hstep _ (sameCipher_answering P0 _)]
          exact b7 c' b bs (by simp only [hc1]; exact hrk) hl

end Bip324
