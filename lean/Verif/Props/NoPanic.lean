import Verif.Props.Session

/-!
# C43: no panic on hostile input

The peer controls every byte of the transport and of the buffers handed to the receiving functions.
-/

namespace Bip324

variable {P : Prims} {prof : Profile}

/-! ## Counters of the inbound cipher -/

/-- `l` lengths and `m` packets were decrypted so far. -/
def InboundCipher.Used (l m : Nat) (c : InboundCipher) : Prop :=
  c.lengthCipher.chunkCounter = l ∧ c.lengthCipher.blockCounter = 3 * (l % 224) ∧
    c.packetCipher.messageCounter = m

theorem used_new (k : SessionKeyMaterial) (r : Role) : (CipherSession.new k r).inbound.Used 0 0 := by
  cases r <;> exact ⟨rfl, rfl, rfl⟩

theorem crypt_used {s : FSStream} {l : Nat} (h1 : s.chunkCounter = l)
    (h2 : s.blockCounter = 3 * (l % 224)) (hl : l + 1 < 2 ^ 32) (b : Bytes) :
    ∃ s' x, s.crypt P prof b = some (s', x) ∧ s'.chunkCounter = l + 1 ∧
      s'.blockCounter = 3 * ((l + 1) % 224) := by
  unfold FSStream.crypt
  rw [h1, uadd_lt (a := l) (by simpa [u32Mod] using hl),
    uadd_lt (by rw [h2]; simp only [u32Mod, LENGTH_BYTES]; omega)]
  simp only [REKEY_INTERVAL]
  by_cases h0 : (l + 1) % 224 = 0
  · rw [if_pos h0]; exact ⟨_, _, rfl, rfl, by simp only; omega⟩
  · rw [if_neg h0]; exact ⟨_, _, rfl, rfl, by simp only [h2, LENGTH_BYTES]; omega⟩

theorem decryptPacketLen_used {c : InboundCipher} {l m : Nat} (h : c.Used l m) (hl : l + 1 < 2 ^ 32)
    (b : Bytes) : ∃ c' n, c.decryptPacketLen P prof b = (c', .ok n) ∧ c'.Used (l + 1) m ∧ 17 ≤ n := by
  obtain ⟨s', x, e, h1, h2⟩ := crypt_used (P := P) (prof := prof) h.1 h.2.1 hl b
  unfold InboundCipher.decryptPacketLen
  rw [e]
  exact ⟨_, _, rfl, ⟨h1, h2, h.2.2⟩, by simp only [NUM_HEADER_BYTES, NUM_TAG_BYTES]; omega⟩

theorem rekey_used {c : FSAead} {m : Nat} (h : c.messageCounter = m) (hm : m + 1 < 2 ^ 64)
    (aad : Bytes) : ∃ c', c.rekey P prof aad = some c' ∧ c'.messageCounter = m + 1 := by
  unfold FSAead.rekey
  rw [h, uadd_lt (by simpa [u64Mod] using hm)]
  exact ⟨_, rfl, rfl⟩

/-- No panic, and at most one more packet was decrypted. -/
def StepOk {α : Type} (l m : Nat) (c' : InboundCipher) (r : Outcome Error α) : Prop :=
  r ≠ .panic ∧ ∃ m', m ≤ m' ∧ m' ≤ m + 1 ∧ c'.Used l m'

theorem decryptInPlace_used (hP : Lawful P) {c : InboundCipher} {l m : Nat} (h : c.Used l m)
    (hm : m + 1 < 2 ^ 64) (ct : Bytes) (aad : Option Bytes) :
    StepOk l m (c.decryptInPlace P prof ct aad).1 (c.decryptInPlace P prof ct aad).2.2 := by
  by_cases hs : ct.length < 17
  · rw [InboundCipher.decryptInPlace_small c ct aad hs]
    exact ⟨by simp, m, by omega, by omega, h⟩
  · obtain ⟨msg, tag, rfl, hl, ht, -⟩ := split_ct (ct := ct) (by omega)
    rw [InboundCipher.decryptInPlace_append hP c msg tag aad hl ht]
    obtain ⟨pc, e, hpc⟩ := rekey_used (P := P) (prof := prof) h.2.2 hm (aad.getD [])
    cases P.openC c.packetCipher.key c.packetCipher.nonce (aad.getD []) msg tag with
    | none => exact ⟨by simp, m, by omega, by omega, h⟩
    | some plain =>
      simp only [e]
      exact ⟨by simp, m + 1, by omega, by omega, h.1, h.2.1, hpc⟩

theorem decrypt_used (hP : Lawful P) {c : InboundCipher} {l m : Nat} (h : c.Used l m)
    (hm : m + 1 < 2 ^ 64) (ct buf : Bytes) (aad : Option Bytes) :
    StepOk l m (c.decrypt P prof ct buf aad).1 (c.decrypt P prof ct buf aad).2.2 := by
  by_cases hs : ct.length < 17
  · unfold InboundCipher.decrypt
    rw [if_pos (by simpa [NUM_TAG_BYTES, NUM_HEADER_BYTES] using hs)]
    exact ⟨by simp, m, by omega, by omega, h⟩
  · obtain ⟨msg, tag, rfl, hl, ht, -⟩ := split_ct (ct := ct) (by omega)
    rw [InboundCipher.decrypt_append hP c msg tag buf aad hl ht]
    obtain ⟨pc, e, hpc⟩ := rekey_used (P := P) (prof := prof) h.2.2 hm (aad.getD [])
    by_cases hb : buf.length < msg.length
    · rw [if_pos hb]; exact ⟨by simp, m, by omega, by omega, h⟩
    rw [if_neg hb]
    cases P.openC c.packetCipher.key c.packetCipher.nonce (aad.getD []) msg tag with
    | none => exact ⟨by simp, m, by omega, by omega, h⟩
    | some plain =>
      simp only [e]
      exact ⟨by simp, m + 1, by omega, by omega, h.1, h.2.1, hpc⟩

theorem decryptToVec_used (hP : Lawful P) {c : InboundCipher} {l m : Nat} (h : c.Used l m)
    (hm : m + 1 < 2 ^ 64) (ct : Bytes) (h16 : 16 ≤ ct.length) (aad : Option Bytes) :
    StepOk l m (c.decryptToVec P prof ct aad).1 (c.decryptToVec P prof ct aad).2 := by
  obtain ⟨-, h2, h3⟩ := C14_to_vec_partial (P := P) (prof := prof) c ct aad h16
  by_cases hb : 4000014 < ct.length - 16
  · rw [h2 hb]; exact ⟨by simp, m, by omega, by omega, h⟩
  · rw [h3 (by omega)]
    obtain ⟨hn, hu⟩ := decrypt_used (prof := prof) hP h hm ct (List.replicate (ct.length - 16) 0) aad
    refine ⟨?_, hu⟩
    cases hd : c.decrypt P prof ct (List.replicate (ct.length - 16) 0) aad with
    | mk c1 y =>
    obtain ⟨b, z⟩ := y
    rw [hd] at hn
    cases z <;> simp_all

/-! ## The decryption functions -/

/-- A call of one of the receiving functions of `InboundCipher`, all arguments hostile. -/
inductive InCall where
  | len (lengthBytes : Bytes)
  | packet (call : DecryptCall)

/-- The call panics. -/
def DecryptCall.panics (P : Prims) (prof : Profile) (c : InboundCipher) : DecryptCall → Bool
  | .inPlace ct aad => match (c.decryptInPlace P prof ct aad).2.2 with | .panic => true | _ => false
  | .intoBuffer ct buf aad => match (c.decrypt P prof ct buf aad).2.2 with | .panic => true | _ => false
  | .toVec ct aad => match (c.decryptToVec P prof ct aad).2 with | .panic => true | _ => false

/-- Runs the calls; whether one of them panicked (nothing after it runs). -/
def anyPanic (P : Prims) (prof : Profile) : InboundCipher → List InCall → Bool
  | _, [] => false
  | c, .len b :: calls =>
    match c.decryptPacketLen P prof b with
    | (_, .panic) => true
    | (c', _) => anyPanic P prof c' calls
  | c, .packet call :: calls =>
    call.panics P prof c || anyPanic P prof (call.run P prof c).1 calls

/-- Lengths decrypted by the calls. -/
def lenCalls : List InCall → Nat
  | [] => 0
  | .len _ :: calls => lenCalls calls + 1
  | .packet _ :: calls => lenCalls calls

/-- Every ciphertext given to `decrypt_to_vec` has at least 16 bytes. -/
def ToVecSized : List InCall → Prop
  | [] => True
  | .packet (.toVec ct _) :: calls => 16 ≤ ct.length ∧ ToVecSized calls
  | _ :: calls => ToVecSized calls

theorem decryptCall_used (hP : Lawful P) {c : InboundCipher} {l m : Nat} (h : c.Used l m)
    (hm : m + 1 < 2 ^ 64) (call : DecryptCall)
    (h16 : ∀ ct aad, call = .toVec ct aad → 16 ≤ ct.length) :
    call.panics P prof c = false ∧
      ∃ m', m ≤ m' ∧ m' ≤ m + 1 ∧ (call.run P prof c).1.Used l m' := by
  cases call with
  | inPlace ct aad =>
    obtain ⟨hn, hu⟩ := decryptInPlace_used (prof := prof) hP h hm ct aad
    unfold DecryptCall.panics DecryptCall.run
    cases hd : c.decryptInPlace P prof ct aad with
    | mk c1 y =>
    obtain ⟨b, z⟩ := y
    rw [hd] at hn hu
    cases z <;> simp_all
  | intoBuffer ct buf aad =>
    obtain ⟨hn, hu⟩ := decrypt_used (prof := prof) hP h hm ct buf aad
    unfold DecryptCall.panics DecryptCall.run
    cases hd : c.decrypt P prof ct buf aad with
    | mk c1 y =>
    obtain ⟨b, z⟩ := y
    rw [hd] at hn hu
    cases z <;> simp_all
  | toVec ct aad =>
    obtain ⟨hn, hu⟩ := decryptToVec_used (prof := prof) hP h hm ct (h16 ct aad rfl) aad
    unfold DecryptCall.panics DecryptCall.run
    cases hd : c.decryptToVec P prof ct aad with
    | mk c1 z =>
    rw [hd] at hn hu
    cases z <;> simp_all

/-- C43 for the decryption functions: from fresh keys no history of calls with arbitrary arguments, in
any order and in any profile, panics, as long as fewer than 2^32 lengths are decrypted (and fewer than
2^64 packets), and `decrypt_to_vec` is given at least 16 bytes.
Missing: `decrypt_to_vec` on fewer than 16 bytes panics in debug builds (`C14_short_panics`); the
lengths returned by `decrypt_packet_len` are never that short. -/
theorem C43_decryption_partial (hP : Lawful P) (kL kP : Bytes) (calls : List InCall)
    (hl : lenCalls calls < 2 ^ 32) (hp : calls.length < 2 ^ 64) (h16 : ToVecSized calls) :
    anyPanic P prof ⟨FSStream.new kL, FSAead.new kP⟩ calls = false := by
  suffices H : ∀ (calls : List InCall) (c : InboundCipher) (l m : Nat), c.Used l m →
      l + lenCalls calls < 2 ^ 32 → m + calls.length < 2 ^ 64 → ToVecSized calls →
      anyPanic P prof c calls = false by
    exact H calls _ 0 0 ⟨rfl, rfl, rfl⟩ (by omega) (by omega) h16
  intro calls
  induction calls with
  | nil => intros; rfl
  | cons call calls ih =>
    intro c l m hu hl hp h16
    simp only [List.length_cons] at hp
    cases call with
    | len b =>
      simp only [lenCalls] at hl
      obtain ⟨c', n, e, hu', -⟩ := decryptPacketLen_used (P := P) (prof := prof) hu (by omega) b
      simp only [anyPanic, e]
      exact ih c' (l + 1) m hu' (by omega) (by omega) h16
    | packet call =>
      simp only [lenCalls] at hl
      have hs : ToVecSized calls ∧ ∀ ct aad, call = .toVec ct aad → 16 ≤ ct.length := by
        cases call with
        | inPlace => exact ⟨h16, by simp⟩
        | intoBuffer => exact ⟨h16, by simp⟩
        | toVec ct aad => exact ⟨h16.2, fun _ _ he => by cases he; exact h16.1⟩
      obtain ⟨hn, m', h1, h2, hu'⟩ := decryptCall_used (prof := prof) hP hu (by omega) call hs.2
      simp only [anyPanic, hn, Bool.false_or]
      exact ih _ l m' hu' hl (by omega) hs.1

/-- Beside `C43_decryption_partial`: hostile calls, with errors and a success in between; and the case
that does panic. -/
example :
    let pkt := match (sampleOut.encryptToVec toy .debug [1, 2] .genuine none).2 with | .ok b => b | _ => []
    let calls : List InCall := [.packet (.inPlace [] none), .len [255, 255, 255],
      .packet (.toVec (zeros 16) none), .packet (.intoBuffer (zeros 40) [] (some [1])),
      .packet (.toVec (pkt.drop 3) none), .len [0, 0, 0]]
    lenCalls calls = 2 ∧ anyPanic toy .debug sampleIn calls = false ∧
    anyPanic toy .debug sampleIn [.packet (.toVec (zeros 15) none)] = true ∧
    anyPanic toy .release sampleIn [.packet (.toVec (zeros 15) none)] = false := by
  decide +kernel

/-! ## The handshake functions -/

/-- C43 for the low-level handshake: `receive_key` and `receive_garbage` never panic, whatever the
peer sent; `send_version` does not either (with fewer than 2^32 − 1 own decoys). -/
theorem C43_handshake_functions (hP : Lawful P) :
    (∀ (h : HsSentKey) (theirKey : Bytes), h.receiveKey P theirKey ≠ .panic) ∧
    (∀ (h : HsSentVersion) (buf : Bytes), h.receiveGarbage buf ≠ .panic) ∧
    (∀ (h : HsSentKey) (theirKey : Bytes) (h' : HsReceivedKey) (buf : Bytes)
      (decoys : Option (List Bytes)), h.receiveKey P theirKey = .ok h' →
      (decoys.getD []).length + 1 < 2 ^ 32 → (h'.sendVersion P prof buf decoys).2 ≠ .panic) := by
  have hfe : ∀ a b s p m, SessionKeyMaterial.fromEcdh P a b s p m ≠ .panic := by
    intro a b s p m
    unfold SessionKeyMaterial.fromEcdh
    simp only
    repeat' split
    all_goals simp
  refine ⟨?_, C21_no_panic, ?_⟩
  · intro h k
    unfold HsSentKey.receiveKey
    simp only
    split
    · simp
    · cases h.role <;> simp only <;> split <;> simp_all
  · intro h k h' buf decoys hk hn
    by_cases hb : 16 + 20 + ((decoys.getD []).map fun d => d.length + 20).sum ≤ buf.length
    · have ht : (h'.sessionKeys.localTerminator h'.role).length = 16 := by
        have := receiveKey_terminators hP hk
        cases hr : h'.role with
        | initiator => exact this .responder
        | responder => exact this .initiator
      obtain ⟨o', e⟩ := C20_layout (prof := prof) hP h' buf decoys ht hn hb
      rw [e]; simp
    · have := C20_small (P := P) (prof := prof) h' buf decoys (by omega)
      rw [this]; simp

/-- What a caller of `Handshake<ReceivedGarbage>` can do. -/
inductive HsCall where
  | len (lengthBytes : Bytes)
  | version (inputBuffer : Bytes)

/-- Runs the calls until the handshake is over (complete or failed); whether one of them panicked. -/
def HsReceivedGarbage.anyPanic (P : Prims) (prof : Profile) : HsReceivedGarbage → List HsCall → Bool
  | _, [] => false
  | h, .len b :: calls =>
    match h.decryptPacketLen P prof b with
    | (_, .panic) => true
    | (h', _) => HsReceivedGarbage.anyPanic P prof h' calls
  | h, .version b :: calls =>
    match (h.receiveVersion P prof b).2 with
    | .panic => true
    | .ok (.decoy h') => HsReceivedGarbage.anyPanic P prof h' calls
    | _ => false

/-- Lengths decrypted by the calls. -/
def hsLenCalls : List HsCall → Nat
  | [] => 0
  | .len _ :: calls => hsLenCalls calls + 1
  | .version _ :: calls => hsLenCalls calls

theorem receiveVersion_used (hP : Lawful P) {h : HsReceivedGarbage} {l m : Nat}
    (hu : h.cipher.inbound.Used l m) (hm : m + 1 < 2 ^ 64) (b : Bytes) :
    (h.receiveVersion P prof b).2 ≠ .panic ∧
    (∀ c, (h.receiveVersion P prof b).2 = .ok (.complete c) →
      ∃ m', m' ≤ m + 1 ∧ c.inbound.Used l m') ∧
    (∀ h', (h.receiveVersion P prof b).2 = .ok (.decoy h') →
      ∃ m', m' ≤ m + 1 ∧ h'.cipher.inbound.Used l m') := by
  obtain ⟨hn, m', -, h2, hu'⟩ := decryptInPlace_used (prof := prof) hP hu hm b h.remoteGarbage
  unfold HsReceivedGarbage.receiveVersion
  simp only
  cases hd : h.cipher.inbound.decryptInPlace P prof b h.remoteGarbage with
  | mk i y =>
  obtain ⟨buf, z⟩ := y
  rw [hd] at hn hu'
  cases z with
  | panic => exact absurd rfl hn
  | err e => simp
  | ok r =>
    obtain ⟨ty, pl⟩ := r
    cases ty with
    | genuine =>
      refine ⟨by simp, ?_, by simp⟩
      intro c hc
      simp only [Outcome.ok.injEq, VersionResult.complete.injEq] at hc
      subst hc
      exact ⟨m', h2, hu'⟩
    | decoy =>
      refine ⟨by simp, by simp, ?_⟩
      intro h' hc
      simp only [Outcome.ok.injEq, VersionResult.decoy.injEq] at hc
      subst hc
      exact ⟨m', h2, hu'⟩

/-- C43 for the last handshake state: whatever lengths and packets the peer sends, in any order of
calls, from the state a handshake reaches after sending its version, nothing panics in the first
2^32 − 1 packets. -/
theorem C43_receive_version (hP : Lawful P) (k : SessionKeyMaterial) (h : HsReceivedGarbage)
    (hc : h.cipher.inbound = (CipherSession.new k h.role).inbound) (calls : List HsCall)
    (hl : hsLenCalls calls < 2 ^ 32) (hp : calls.length < 2 ^ 64) :
    h.anyPanic P prof calls = false := by
  suffices H : ∀ (calls : List HsCall) (h : HsReceivedGarbage) (l m : Nat),
      h.cipher.inbound.Used l m → l + hsLenCalls calls < 2 ^ 32 → m + calls.length < 2 ^ 64 →
      h.anyPanic P prof calls = false by
    exact H calls h 0 0 (by rw [hc]; exact used_new _ _) (by omega) (by omega)
  intro calls
  induction calls with
  | nil => intros; rfl
  | cons call calls ih =>
    intro h l m hu hl hp
    simp only [List.length_cons] at hp
    cases call with
    | len b =>
      simp only [hsLenCalls] at hl
      obtain ⟨c', n, e, hu', -⟩ := decryptPacketLen_used (P := P) (prof := prof) hu (by omega) b
      simp only [HsReceivedGarbage.anyPanic, HsReceivedGarbage.decryptPacketLen, e]
      exact ih _ (l + 1) m hu' (by omega) (by omega)
    | version b =>
      simp only [hsLenCalls] at hl
      obtain ⟨hn, -, hd⟩ := receiveVersion_used (prof := prof) hP hu (by omega) b
      simp only [HsReceivedGarbage.anyPanic]
      cases hv : (h.receiveVersion P prof b).2 with
      | panic => exact absurd hv hn
      | err e => rfl
      | ok v =>
        cases v with
        | complete c => rfl
        | decoy h' =>
          obtain ⟨m', hm', hu'⟩ := hd h' hv
          exact ih h' l m' hu' hl (by omega)

/-! ## The I/O wrappers -/

theorem garbageLoop_no_panic (h : HsSentVersion) (buf : Bytes) (src : Source) :
    (garbageLoop h buf src).2 ≠ .panic ∧
      ∀ h' n b s, (garbageLoop h buf src).2 = .ok (h', n, b, s) → h'.cipher = h.cipher := by
  induction hs : src.size using Nat.strongRecOn generalizing buf src with
  | ind m ih =>
  rw [garbageLoop_eq]
  cases hg : h.receiveGarbage buf with
  | panic => exact absurd hg (C21_no_panic h buf)
  | err e => simp
  | ok g =>
    unfold HsSentVersion.receiveGarbage at hg
    cases hsp : h.splitGarbage buf with
    | panic => rw [hsp] at hg; simp at hg
    | ok x =>
      rw [hsp] at hg
      simp only [Outcome.ok.injEq] at hg
      subst hg
      simp
      rintro h' - - - rfl - - -
      rfl
    | err e =>
      rw [hsp] at hg
      have : g = .needMoreData h := by
        cases e <;> simp at hg <;> exact hg.symm
      subst this
      simp only
      cases hr : src.read 256 with
      | mk src' r =>
      cases r with
      | err k => simp
      | ok bs =>
        cases bs with
        | nil => simp
        | cons b bs =>
          have hlt : src'.size < src.size := by
            simpa using Source.read_dec _ _ _ _ (by omega) hr
          exact ih src'.size (by omega) (buf ++ b :: bs) src' rfl

theorem versionLoop_no_panic (hP : Lawful P) (A : Api) (h : HsReceivedGarbage) (s : A.Session)
    {l m : Nat} (hu : h.cipher.inbound.Used l m) (hml : m ≤ l) {log : List Nat}
    {r : Outcome ProtocolError (InboundCipher × OutboundCipher × A.Session)}
    (hv : versionLoop A P prof h s = (log, r)) (hlt : l + log.length + 1 < 2 ^ 32) :
    r ≠ .panic ∧ ∀ i o s', r = .ok (i, o, s') →
      ∃ m', m' ≤ l + log.length ∧ i.Used (l + log.length) m' := by
  induction hs : A.reader.size s using Nat.strongRecOn generalizing h s l m log r with
  | ind z ih =>
  rw [versionLoop_eq] at hv
  cases h1 : A.reader.readExact A.retry s NUM_LENGTH_BYTES with
  | mk s1 r1 =>
  rw [h1] at hv
  cases r1 with
  | error k =>
    simp only [Prod.mk.injEq] at hv
    obtain ⟨rfl, rfl⟩ := hv
    simp
  | ok lb =>
  simp only at hv
  obtain ⟨c', n, e, hu', h17⟩ := decryptPacketLen_used (P := P) (prof := prof) hu (by omega) lb
  simp only [HsReceivedGarbage.decryptPacketLen, e] at hv
  by_cases hn : n > MAX_PACKET_SIZE_FOR_ALLOCATION
  · rw [if_pos hn] at hv
    simp only [Prod.mk.injEq] at hv
    obtain ⟨rfl, rfl⟩ := hv
    simp
  rw [if_neg hn] at hv
  cases h2 : A.reader.readExact A.retry s1 n with
  | mk s2 r2 =>
  rw [h2] at hv
  cases r2 with
  | error k =>
    simp only [Prod.mk.injEq] at hv
    obtain ⟨rfl, rfl⟩ := hv
    simp
  | ok pb =>
  simp only at hv
  obtain ⟨hrp, hrc, hrd⟩ := receiveVersion_used (prof := prof) hP
    (h := { h with cipher := { h.cipher with inbound := c' } }) hu' (by omega) pb
  cases hrv : HsReceivedGarbage.receiveVersion P prof
    { h with cipher := { h.cipher with inbound := c' } } pb with
  | mk b x =>
  rw [hrv] at hrp hrc hrd
  simp only [hrv] at hv
  cases x with
  | panic => exact absurd rfl hrp
  | err e =>
    simp only [Prod.mk.injEq] at hv
    obtain ⟨rfl, rfl⟩ := hv
    simp
  | ok v =>
    cases v with
    | complete c =>
      simp only [Prod.mk.injEq] at hv
      obtain ⟨rfl, rfl⟩ := hv
      refine ⟨by simp, ?_⟩
      intro i o s' hi
      obtain ⟨m', hm', hu''⟩ := hrc c rfl
      simp only [CipherSession.intoSplit, Outcome.ok.injEq, Prod.mk.injEq] at hi
      obtain ⟨rfl, -, -⟩ := hi
      exact ⟨m', by simp; omega, hu''⟩
    | decoy h' =>
      obtain ⟨m', hm', hu''⟩ := hrd h' rfl
      cases hrec : versionLoop A P prof h' s2 with
      | mk log' r' =>
      simp only [hrec, Prod.mk.injEq] at hv
      obtain ⟨rfl, rfl⟩ := hv
      have a := (A.reader.readExact_size _ _ _ _ _ _ h1).2 (by decide) ⟨_, rfl⟩
      have b := (A.reader.readExact_size _ _ _ _ _ _ h2).1
      simp only [List.length_cons] at hlt ⊢
      have := ih (A.reader.size s2) (by omega) h' s2 hu'' (by omega) hrec (by omega) rfl
      rwa [show l + 1 + log'.length = l + (log'.length + 1) by omega] at this

theorem sendVersion_inbound {h : HsReceivedKey} {buf buf' : Bytes} {decoys : Option (List Bytes)}
    {h' : HsSentVersion} (hv : h.sendVersion P prof buf decoys = (buf', .ok h')) :
    h'.cipher.inbound = (CipherSession.new h.sessionKeys h.role).inbound := by
  unfold HsReceivedKey.sendVersion at hv
  simp only at hv
  split at hv
  · simp at hv
  · split at hv
    · simp at hv
    · simp at hv
    · split at hv
      · simp at hv
      · simp at hv
      · simp only [Prod.mk.injEq, Outcome.ok.injEq] at hv
        rw [← hv.2]

/-- C43 for the I/O handshake, synchronous or asynchronous: whatever the transport does (any bytes, any
segmentation, errors, any writes failing), the handshake does not panic, as long as it has received
fewer than 2^32 − 1 decoy and version packets (the log lists them), and if it succeeds the inbound
cipher has been used once per packet.  The application's own inputs are the secret key and the number of
its decoys. -/
theorem C43_handshake (hP : Lawful P) (A : Api) (magic : Bytes) (role : Role) (rng : Bytes)
    (hrng : prof.debugAssertions = true → rng ≠ List.replicate 32 0) (garbage : Option Bytes)
    (decoys : Option (List Bytes)) (hd : (decoys.getD []).length + 1 < 2 ^ 32) (reader : Source)
    (writer : Sink) {w : Sink} {log : HsLog}
    {r : Outcome ProtocolError (InboundCipher × OutboundCipher × A.Session)}
    (h : handshake A P prof magic role rng garbage decoys reader writer = (w, log, r))
    (hlt : log.packets.length + 1 < 2 ^ 32) :
    r ≠ .panic ∧ ∀ i o s, r = .ok (i, o, s) →
      ∃ m, m ≤ log.packets.length ∧ i.Used log.packets.length m := by
  unfold handshake at h
  cases hi : HsInitialized.newWithRng P prof magic role rng with
  | panic =>
    unfold HsInitialized.newWithRng at hi
    split at hi
    · rename_i hz
      simp only [Bool.and_eq_true, beq_iff_eq] at hz
      exact absurd hz.2 (hrng hz.1)
    · split at hi <;> simp at hi
  | err e =>
    rw [hi] at h
    simp only [Prod.mk.injEq] at h
    obtain ⟨-, rfl, rfl⟩ := h
    simp
  | ok h0 =>
  rw [hi] at h
  simp only at h
  unfold handshakeWithInitialized at h
  cases hk : h0.sendKey garbage (zeros (HsInitialized.sendKeyLen garbage)) with
  | mk keyBuffer r1 =>
  rw [hk] at h
  cases r1 with
  | panic =>
    unfold HsInitialized.sendKey at hk
    simp only at hk
    split at hk
    · simp at hk
    · split at hk <;> simp at hk
  | err e =>
    simp only [Prod.mk.injEq] at h
    obtain ⟨-, rfl, rfl⟩ := h
    simp
  | ok h1 =>
  simp only at h
  cases hw1 : writer.send A.retry keyBuffer with
  | mk writer1 r2 =>
  simp only [hw1] at h
  cases r2 with
  | error k =>
    simp only [Prod.mk.injEq] at h
    obtain ⟨-, rfl, rfl⟩ := h
    simp
  | ok u =>
  simp only at h
  cases hr1 : Source.reader.readExact A.retry reader NUM_ELLIGATOR_SWIFT_BYTES with
  | mk reader1 r3 =>
  simp only [hr1] at h
  cases r3 with
  | error k =>
    simp only [Prod.mk.injEq] at h
    obtain ⟨-, rfl, rfl⟩ := h
    simp
  | ok key =>
  simp only at h
  cases hrk : h1.receiveKey P key with
  | panic => exact absurd hrk ((C43_handshake_functions (prof := prof) hP).1 h1 key)
  | err e =>
    simp only [hrk, Prod.mk.injEq] at h
    obtain ⟨-, rfl, rfl⟩ := h
    simp
  | ok h2 =>
  simp only [hrk] at h
  cases hsv : h2.sendVersion P prof (zeros (HsReceivedKey.sendVersionLen decoys)) decoys with
  | mk vb r4 =>
  simp only [hsv] at h
  cases r4 with
  | panic =>
    have := (C43_handshake_functions (prof := prof) hP).2.2 h1 key h2
      (zeros (HsReceivedKey.sendVersionLen decoys)) decoys hrk hd
    rw [hsv] at this
    exact absurd rfl this
  | err e =>
    simp only [Prod.mk.injEq] at h
    obtain ⟨-, rfl, rfl⟩ := h
    simp
  | ok h3 =>
  simp only at h
  cases hw2 : writer1.send A.retry vb with
  | mk writer2 r5 =>
  simp only [hw2] at h
  cases r5 with
  | error k =>
    simp only [Prod.mk.injEq] at h
    obtain ⟨-, rfl, rfl⟩ := h
    simp
  | ok u =>
  simp only at h
  cases hr2 : Source.reader.readExact A.retry reader1 NUM_GARBAGE_TERMINATOR_BYTES with
  | mk reader2 r6 =>
  simp only [hr2] at h
  cases r6 with
  | error k =>
    simp only [Prod.mk.injEq] at h
    obtain ⟨-, rfl, rfl⟩ := h
    simp
  | ok gb =>
  simp only at h
  obtain ⟨g1, g2⟩ := garbageLoop_no_panic h3 gb reader2
  cases hg : garbageLoop h3 gb reader2 with
  | mk glog r7 =>
  rw [hg] at g1 g2
  simp only [hg] at h
  cases r7 with
  | panic => exact absurd rfl g1
  | err e =>
    simp only [Prod.mk.injEq] at h
    obtain ⟨-, rfl, rfl⟩ := h
    simp
  | ok x =>
  obtain ⟨h4, nb, gb2, reader3⟩ := x
  simp only at h
  cases hvl : versionLoop A P prof h4 (A.mkSession (gb2.drop nb) reader3) with
  | mk plog r8 =>
  simp only [hvl, Prod.mk.injEq] at h
  obtain ⟨-, rfl, rfl⟩ := h
  have hu : h4.cipher.inbound.Used 0 0 := by
    rw [g2 _ _ _ _ rfl, sendVersion_inbound hsv]
    exact used_new _ _
  simpa using versionLoop_no_panic hP A h4 _ hu (Nat.le_refl 0) hvl (by simpa using hlt)

theorem decrypt_ok_nonempty {c c' : InboundCipher} {ct buf buf' : Bytes} {aad : Option Bytes}
    {ty : PacketType} (h : c.decrypt P prof ct buf aad = (c', buf', .ok ty)) : buf' ≠ [] := by
  unfold InboundCipher.decrypt at h
  simp only at h
  split at h
  · simp at h
  split at h
  · simp at h
  split at h
  · simp at h
  · simp at h
  · split at h
    · simp at h
    · rename_i heq
      simp only [Prod.mk.injEq] at h
      rw [← h.2.1, heq]
      simp

theorem decryptToVec_ok_nonempty {c c' : InboundCipher} {ct buf : Bytes} {aad : Option Bytes}
    {ty : PacketType} (h : c.decryptToVec P prof ct aad = (c', .ok (ty, buf))) : buf ≠ [] := by
  unfold InboundCipher.decryptToVec at h
  split at h
  · simp at h
  split at h
  · simp at h
  split at h
  · rename_i heq
    simp only [Prod.mk.injEq, Outcome.ok.injEq] at h
    obtain ⟨-, -, rfl⟩ := h
    exact decrypt_ok_nonempty heq
  · simp at h
  · simp at h

/-- A payload whose accessors do not panic. -/
def Payload.Usable (p : Payload) : Prop :=
  (∃ c, p.contents = some c) ∧ ∃ t, p.packetType = some t

theorem mkDecrypted_usable {data : Bytes} (h : data ≠ []) :
    Payload.mkDecrypted prof data = some (.decrypted data) ∧ (Payload.decrypted data).Usable := by
  cases data with
  | nil => exact absurd rfl h
  | cons b bs => exact ⟨by simp [Payload.mkDecrypted], ⟨bs, rfl⟩, ⟨_, rfl⟩⟩

theorem SyncSession.read_length (s : SyncSession) (n : Nat) {s' : SyncSession} {bs : Bytes}
    (h : s.read n = (s', .ok bs)) : bs.length ≤ n := by
  unfold SyncSession.read at h
  split at h
  · cases hr : s.inner.read n with
    | mk i r =>
    simp only [hr, Prod.mk.injEq] at h
    obtain ⟨-, rfl⟩ := h
    exact Source.read_length _ _ hr
  · split at h
    · split at h
      · simp only [Prod.mk.injEq, ReadRes.ok.injEq] at h
        rw [← h.2]; simp
      · cases hr : s.inner.read n with
        | mk i r =>
        simp only [hr, Prod.mk.injEq] at h
        obtain ⟨-, rfl⟩ := h
        exact Source.read_length _ _ hr
    · rename_i b bs' heq
      simp only [Prod.mk.injEq, ReadRes.ok.injEq] at h
      rw [← h.2, ← heq, List.length_take]
      omega

theorem sync_read_used (hP : Lawful P) {r : SyncReader} {l m : Nat} (hu : r.cipher.Used l m)
    (hml : m ≤ l) (hl : l + 1 < 2 ^ 32) :
    (r.read P prof).2 ≠ .panic ∧ (∀ p, (r.read P prof).2 = .ok p → p.Usable) ∧
      ∃ l' m', l' ≤ l + 1 ∧ m' ≤ l' ∧ (r.read P prof).1.cipher.Used l' m' := by
  unfold SyncReader.read
  cases h1 : SyncSession.reader.readExact true r.reader NUM_LENGTH_BYTES with
  | mk s1 r1 =>
  cases r1 with
  | error k => exact ⟨by simp, by simp, l, m, by omega, hml, hu⟩
  | ok lb =>
  obtain ⟨c', n, e, hu', h17⟩ := decryptPacketLen_used (P := P) (prof := prof) hu hl lb
  simp only [e]
  cases h2 : SyncSession.reader.readExact true s1 n with
  | mk s2 r2 =>
  cases r2 with
  | error k => exact ⟨by simp, by simp, l + 1, m, by omega, by omega, hu'⟩
  | ok pb =>
  have hpb : pb.length = n := by
    have := readExact_length SyncSession.reader true (fun s n s' bs => SyncSession.read_length s n)
      _ _ _ h2
    simpa using this
  obtain ⟨hn, m', h3, h4, hu''⟩ := decryptToVec_used (prof := prof) hP hu' (by omega) pb
    (by omega) none
  cases h5 : c'.decryptToVec P prof pb none with
  | mk c2 z =>
  rw [h5] at hn hu''
  simp only [h5]
  cases z with
  | panic => exact absurd rfl hn
  | err e => exact ⟨by simp, by simp, l + 1, m', by omega, by omega, hu''⟩
  | ok x =>
    obtain ⟨ty, buf⟩ := x
    obtain ⟨hmk, hus⟩ := mkDecrypted_usable (prof := prof) (decryptToVec_ok_nonempty h5)
    simp only [hmk]
    exact ⟨by simp, by rintro p hp; cases hp; exact hus, l + 1, m', by omega, by omega, hu''⟩

/-- C43, synchronous API: a handshake over any transport followed by `n` calls of `read` does not
panic, neither in the reads nor when the payloads are looked at, as long as handshake packets and reads
together are fewer than 2^32. -/
theorem C43_sync_session (hP : Lawful P) (magic : Bytes) (role : Role) (rng : Bytes)
    (hrng : prof.debugAssertions = true → rng ≠ List.replicate 32 0) (garbage : Option Bytes)
    (decoys : Option (List Bytes)) (hd : (decoys.getD []).length + 1 < 2 ^ 32) (reader : Source)
    (writer : Sink) {w : Sink} {log : HsLog} {i : InboundCipher} {o : OutboundCipher} {s : SyncSession}
    (h : handshake syncApi P prof magic role rng garbage decoys reader writer = (w, log, .ok (i, o, s)))
    (n : Nat) (hn : log.packets.length + n < 2 ^ 32) :
    ∀ x ∈ (SyncReader.readMany P prof ⟨i, s⟩ n).2, x ≠ .panic ∧ ∀ p, x = .ok p → p.Usable := by
  suffices H : ∀ (n : Nat) (r : SyncReader) (l m : Nat), r.cipher.Used l m → m ≤ l → l + n < 2 ^ 32 →
      ∀ x ∈ (SyncReader.readMany P prof r n).2, x ≠ .panic ∧ ∀ p, x = .ok p → p.Usable by
    cases n with
    | zero => simp [SyncReader.readMany]
    | succ n =>
      obtain ⟨-, hu⟩ := C43_handshake hP syncApi magic role rng hrng garbage decoys hd reader writer h
        (by omega)
      obtain ⟨m, hm, hu⟩ := hu i o s rfl
      exact H (n + 1) ⟨i, s⟩ _ m hu hm hn
  intro n
  induction n with
  | zero => simp [SyncReader.readMany]
  | succ n ih =>
    intro r l m hu hml hl x hx
    obtain ⟨h1, h2, l', m', h3, h4, hu'⟩ := sync_read_used (prof := prof) hP hu hml (by omega)
    simp only [SyncReader.readMany, List.mem_cons] at hx
    rcases hx with rfl | hx
    · exact ⟨h1, h2⟩
    · exact ih _ l' m' hu' h4 (by omega) x hx

/-- The asynchronous reader has returned packets up to number `l`. -/
def AsyncReader.Used (l : Nat) (r : AsyncReader) : Prop :=
  match r.state with
  | .readingLength b n => ∃ m, m ≤ l ∧ r.cipher.Used l m ∧ n ≤ b.length
  | .readingPayload b n => ∃ m, m ≤ l ∧ r.cipher.Used (l + 1) m ∧ n ≤ b.length ∧ 17 ≤ b.length

/-- What a poll gives. -/
def PollOk (l : Nat) (x : AsyncReader × PollResult) : Prop :=
  match x with
  | (r', .ready (.ok p)) => r'.Used (l + 1) ∧ p.Usable
  | (_, .ready .panic) => False
  | (r', _) => r'.Used l

theorem pollPayload_used (hP : Lawful P) {c : InboundCipher} {l m : Nat} (hu : c.Used (l + 1) m)
    (hm : m ≤ l) (hl : l + 1 < 2 ^ 32) (s : AsyncSession) {b : Bytes} {n : Nat}
    (hn : n ≤ b.length) (h17 : 17 ≤ b.length) :
    PollOk l (AsyncReader.pollPayload P prof c s b n) := by
  unfold AsyncReader.pollPayload
  have hf := pollFill_spec s b n hn
  cases hp : pollFill s b n with
  | pending s' b' n' =>
    rw [hp] at hf
    exact ⟨m, hm, hu, hf.1, by rw [hf.2.1]; exact h17⟩
  | err s' b' n' k =>
    rw [hp] at hf
    exact ⟨m, hm, hu, by have := hf.1; omega, by rw [hf.2.1]; exact h17⟩
  | full s' b' n' =>
    rw [hp] at hf
    have hb : 17 ≤ b'.length := by rw [hf.2.1]; exact h17
    have hdl : InboundCipher.decryptionBufferLen prof b'.length = some (b'.length - 16) := by
      simp only [InboundCipher.decryptionBufferLen, usub, NUM_TAG_BYTES]
      rw [if_pos (by omega)]
    simp only [hdl]
    obtain ⟨hnp, m', h3, h4, hu'⟩ := decrypt_used (prof := prof) hP hu (by omega) b'
      (zeros (b'.length - 16)) none
    cases h5 : c.decrypt P prof b' (zeros (b'.length - 16)) none with
    | mk c2 y =>
    obtain ⟨buf, z⟩ := y
    rw [h5] at hnp hu'
    cases z with
    | panic => exact absurd rfl hnp
    | err e =>
      have hc : c2 = c := (C04_decrypt hP c c2 b' _ buf none e h5).1
      subst hc
      exact ⟨m, hm, hu, by omega, hb⟩
    | ok ty =>
      obtain ⟨hmk, hus⟩ := mkDecrypted_usable (prof := prof) (decrypt_ok_nonempty h5)
      simp only [hmk]
      exact ⟨⟨m', by omega, hu', by simp⟩, hus⟩

theorem poll_used (hP : Lawful P) {r : AsyncReader} {l : Nat} (h : r.Used l) (hl : l + 1 < 2 ^ 32) :
    PollOk l (r.poll P prof) := by
  unfold AsyncReader.poll
  obtain ⟨c, s, st⟩ := r
  cases st with
  | readingPayload b n =>
    obtain ⟨m, hm, hu, hn, h17⟩ := h
    exact pollPayload_used hP hu hm hl s hn h17
  | readingLength b n =>
    obtain ⟨m, hm, hu, hn⟩ := h
    have hf := pollFill_spec s b n hn
    simp only
    cases hp : pollFill s b n with
    | pending s' b' n' => rw [hp] at hf; exact ⟨m, hm, hu, hf.1⟩
    | err s' b' n' k => rw [hp] at hf; exact ⟨m, hm, hu, by have := hf.1; omega⟩
    | full s' b' n' =>
      obtain ⟨c', k, e, hu', h17⟩ := decryptPacketLen_used (P := P) (prof := prof) hu hl b'
      simp only [e]
      exact pollPayload_used hP hu' hm hl s' (by simp) (by simpa using h17)

/-- C43, asynchronous API: a handshake over any transport followed by any schedule of polls and
cancellations of `read` does not panic, neither in the reads nor when the payloads are looked at, as
long as the packets of the handshake and the payloads returned are fewer than 2^32 − 1. -/
theorem C43_async_session (hP : Lawful P) (magic : Bytes) (role : Role) (rng : Bytes)
    (hrng : prof.debugAssertions = true → rng ≠ List.replicate 32 0) (garbage : Option Bytes)
    (decoys : Option (List Bytes)) (hd : (decoys.getD []).length + 1 < 2 ^ 32) (reader : Source)
    (writer : Sink) {w : Sink} {log : HsLog} {i : InboundCipher} {o : OutboundCipher} {s : AsyncSession}
    (h : handshake asyncApi P prof magic role rng garbage decoys reader writer = (w, log, .ok (i, o, s)))
    (es : List ReadEvent) {r' : AsyncReader} {outs : List (Outcome ProtocolError Payload)}
    (hrun : AsyncReader.run P prof ⟨i, s, .initReadingLength⟩ es = (r', outs))
    (hn : log.packets.length + (payloads outs).length + 1 < 2 ^ 32) :
    ∀ x ∈ outs, x ≠ .panic ∧ ∀ p, x = .ok p → p.Usable := by
  suffices H : ∀ (es : List ReadEvent) (r : AsyncReader) (l : Nat), r.Used l →
      ∀ r' outs, AsyncReader.run P prof r es = (r', outs) → l + (payloads outs).length + 1 < 2 ^ 32 →
      ∀ x ∈ outs, x ≠ .panic ∧ ∀ p, x = .ok p → p.Usable by
    obtain ⟨-, hu⟩ := C43_handshake hP asyncApi magic role rng hrng garbage decoys hd reader writer h
      (by omega)
    obtain ⟨m, hm, hu⟩ := hu i o s rfl
    exact H es ⟨i, s, .initReadingLength⟩ _ ⟨m, hm, hu, by simp⟩ r' outs hrun hn
  intro es
  induction es with
  | nil =>
    intro r l _ r' outs hrun _ x hx
    simp only [AsyncReader.run, Prod.mk.injEq] at hrun
    rw [← hrun.2] at hx
    simp at hx
  | cons ev es ih =>
    intro r l hu r' outs hrun hlt x hx
    cases ev with
    | cancel => exact ih r l hu r' outs hrun hlt x hx
    | poll =>
      have hp := poll_used (P := P) (prof := prof) hP hu (by omega)
      unfold AsyncReader.run at hrun
      cases hpoll : r.poll P prof with
      | mk r1 y =>
      rw [hpoll] at hrun hp
      cases y with
      | pending => exact ih r1 l hp r' outs hrun hlt x hx
      | ready z =>
        simp only at hrun
        cases hrest : AsyncReader.run P prof r1 es with
        | mk r2 xs =>
        rw [hrest] at hrun
        simp only [Prod.mk.injEq] at hrun
        obtain ⟨-, rfl⟩ := hrun
        cases z with
        | panic => exact absurd hp (by simp [PollOk])
        | err e =>
          rcases List.mem_cons.1 hx with rfl | hx
          · simp
          · exact ih r1 l hp r2 xs hrest hlt x hx
        | ok p =>
          rcases List.mem_cons.1 hx with rfl | hx
          · exact ⟨by simp, by rintro q hq; cases hq; exact hp.2⟩
          · exact ih r1 (l + 1) hp.1 r2 xs hrest (by
              simp only [payloads, List.length_cons] at hlt; omega) x hx

/-- Beside C43: a peer that completes the handshake (three packets) and then announces five bytes
and sends rubbish. -/
example :
    let x := handshake syncApi toy .debug [1, 2, 3, 4] .responder (leBytes 32 99) none none
      [.data (sampleWire ++ [165, 167, 174] ++ List.replicate 22 7)] ⟨[], [], []⟩
    let y := handshake asyncApi toy .debug [1, 2, 3, 4] .responder (leBytes 32 99) none none
      [.data (sampleWire ++ [165, 167, 174] ++ List.replicate 22 7)] ⟨[], [], []⟩
    x.2.1.packets.length = 3 ∧ y.2.1.packets.length = 3 ∧
    (match x.2.2 with
      | .ok (i, _, s) => (SyncReader.readMany toy .debug ⟨i, s⟩ 2).2
      | _ => []) = [.err (.internal .decryption), .err (.io .unexpectedEof .retryV1)] ∧
    (match y.2.2 with
      | .ok (i, _, s) => (AsyncReader.run toy .debug ⟨i, s, .initReadingLength⟩ [.poll, .cancel, .poll]).2
      | _ => []) = [.err (.internal .decryption), .err (.internal .decryption)] := by
  decide +kernel

end Bip324
