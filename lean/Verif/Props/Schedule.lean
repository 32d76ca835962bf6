import Verif.Lemmas.Schedule
import Verif.Spec.Toy

/-!
# Properties of the key schedule: C07, C08, C09, C10
-/

namespace Bip324

variable {P : Prims} {prof : Profile}

/-! ## C07 -/

/-- One call of `OutboundCipher::encrypt`. -/
structure EncCall where
  plaintext : Bytes
  buffer : Bytes
  ty : PacketType
  aad : Option Bytes

/-- The nonces one call hands to the AEAD: none if the buffer is too small, otherwise the packet
nonce and, for the last message of an epoch, the re-keying nonce. -/
def nonceUses (c : OutboundCipher) (call : EncCall) : List Bytes :=
  if call.buffer.length < call.plaintext.length + 20 then []
  else if (c.packetCipher.messageCounter + 1) % 224 = 0 then
    [c.packetCipher.nonce, c.packetCipher.rekeyNonce]
  else [c.packetCipher.nonce]

/-- The nonces used by a history of calls, failed ones included. -/
def nonceTrace (P : Prims) (prof : Profile) : OutboundCipher → List EncCall → List Bytes
  | _, [] => []
  | c, call :: calls =>
    nonceUses c call ++
      nonceTrace P prof (c.encrypt P prof call.plaintext call.buffer call.ty call.aad).1 calls

/-- C07, adequacy of the trace: the result of a call depends on the AEAD only through the nonces
listed by `nonceUses` (any two AEADs that agree on those nonces give the same result). -/
theorem C07_uses_adequate (c : OutboundCipher) (call : EncCall) (P' : Prims)
    (hctr : c.packetCipher.messageCounter + 1 < 2 ^ 64) (hks : P'.ks = P.ks)
    (hag : ∀ n ∈ nonceUses c call, ∀ k a m, P'.sealC k n a m = P.sealC k n a m) :
    c.encrypt P' prof call.plaintext call.buffer call.ty call.aad
      = c.encrypt P prof call.plaintext call.buffer call.ty call.aad := by
  unfold nonceUses at hag
  unfold OutboundCipher.encrypt
  by_cases hb : call.buffer.length < OutboundCipher.encryptionBufferLen call.plaintext.length
  · rw [if_pos hb, if_pos hb]
  · rw [if_neg hb, if_neg hb]
    rw [if_neg (by exact hb)] at hag
    have hcr : ∀ x, c.lengthCipher.crypt P' prof x = c.lengthCipher.crypt P prof x := by
      intro x
      simp only [FSStream.crypt, Prims.ksSlice, hks]
    have hen : ∀ a x, c.packetCipher.encrypt P' prof a x = c.packetCipher.encrypt P prof a x := by
      intro a x
      rw [FSAead.encrypt_some, FSAead.encrypt_some]
      have h1 : P'.sealC c.packetCipher.key c.packetCipher.nonce a x
          = P.sealC c.packetCipher.key c.packetCipher.nonce a x := by
        apply hag; split <;> simp
      have h2 : c.packetCipher.rekey P' prof a = c.packetCipher.rekey P prof a := by
        unfold FSAead.rekey
        rw [uadd_lt hctr]
        simp only
        by_cases h0 : (c.packetCipher.messageCounter + 1) % 224 = 0
        · rw [if_pos h0] at hag
          rw [hag c.packetCipher.rekeyNonce (by simp)]
        · rw [if_neg (by exact h0), if_neg (by exact h0)]
      rw [h1, h2]
    simp only [hcr, hen]

/-- Position of a nonce in the order of use. -/
def nonceRank (n : Bytes) : Nat := leNat (n.drop 4) * 4294967296 + leNat (n.take 4)

private theorem rank_mono (n K s : Nat) (hK : 1024 ≤ K) (hs : 1 ≤ s) (hs3 : s ≤ 3) :
    n / 224 * K + s * (n % 224) < (n + 1) / 224 * K + s * ((n + 1) % 224) := by
  have hm : s * (n % 224) ≤ 3 * 223 := Nat.mul_le_mul hs3 (by omega)
  by_cases h : (n + 1) % 224 = 0
  · rw [epoch_succ n, if_pos h, h, Nat.add_mul]; omega
  · rw [epoch_succ n, if_neg h, slot_succ n, if_neg h, Nat.mul_add]; omega

theorem rank_nonce (c : FSAead) (h : c.messageCounter < 2 ^ 64) :
    nonceRank c.nonce = c.messageCounter / 224 * 4294967296 + c.messageCounter % 224 := by
  unfold nonceRank FSAead.nonce
  rw [drop_append_len _ _ (by simp), take_append_len _ _ (by simp), leNat_leBytes, leNat_leBytes,
    Nat.mod_eq_of_lt (by simp only [REKEY_INTERVAL]; omega),
    Nat.mod_eq_of_lt (by simp only [REKEY_INTERVAL]; omega)]

theorem rank_rekeyNonce (c : FSAead) (h : c.messageCounter < 2 ^ 64) :
    nonceRank c.rekeyNonce = c.messageCounter / 224 * 4294967296 + 4294967295 := by
  unfold nonceRank FSAead.rekeyNonce FSAead.nonce
  rw [drop_append_len (leBytes 4 _) _ (by simp), drop_append_len _ _ (by rfl),
    take_append_len _ _ (by rfl), leNat_leBytes,
    Nat.mod_eq_of_lt (by simp only [REKEY_INTERVAL]; omega)]
  rfl

theorem counter_step (c : OutboundCipher) (call : EncCall)
    (hctr : c.packetCipher.messageCounter + 1 < 2 ^ 64) :
    (c.encrypt P prof call.plaintext call.buffer call.ty call.aad).1.packetCipher.messageCounter
      = if call.buffer.length < call.plaintext.length + 20 then c.packetCipher.messageCounter
        else c.packetCipher.messageCounter + 1 := by
  unfold OutboundCipher.encrypt
  by_cases hb : call.buffer.length < OutboundCipher.encryptionBufferLen call.plaintext.length
  · rw [if_pos hb, if_pos (by exact hb)]
  · rw [if_neg hb, if_neg (by exact hb)]
    simp only
    split
    · rename_i h
      rw [FSAead.encrypt_some, Option.map_eq_none_iff, FSAead.rekey_none] at h
      simp only [u64Mod] at h; omega
    · rename_i pc ct tag h
      have hpc : pc.messageCounter = c.packetCipher.messageCounter + 1 := by
        rw [FSAead.encrypt_some] at h
        unfold FSAead.rekey at h
        rw [uadd_lt hctr] at h
        simp only [Option.map_some, Option.some.injEq, Prod.mk.injEq] at h
        rw [← h.1]
      split <;> exact hpc

private theorem trace_sorted (calls : List EncCall) (c : OutboundCipher)
    (h : c.packetCipher.messageCounter + calls.length < 2 ^ 64) :
    (nonceTrace P prof c calls).Pairwise (fun a b => nonceRank a < nonceRank b) ∧
      ∀ n ∈ nonceTrace P prof c calls,
        c.packetCipher.messageCounter / 224 * 4294967296 + c.packetCipher.messageCounter % 224
          ≤ nonceRank n := by
  induction calls generalizing c with
  | nil => simp [nonceTrace]
  | cons call calls ih =>
    simp only [List.length_cons] at h
    have hs := counter_step (P := P) (prof := prof) c call (by omega)
    have h1 := rank_nonce c.packetCipher (by omega)
    have h2 := rank_rekeyNonce c.packetCipher (by omega)
    have hmono := rank_mono c.packetCipher.messageCounter 4294967296 1 (by omega) (by omega) (by omega)
    rw [nonceTrace]
    unfold nonceUses
    by_cases hb : call.buffer.length < call.plaintext.length + 20
    · rw [if_pos hb] at hs ⊢
      have := ih _ (by rw [hs]; omega)
      rw [hs] at this
      simpa using this
    · rw [if_neg hb] at hs ⊢
      obtain ⟨ih1, ih2⟩ := ih _ (by rw [hs]; omega)
      rw [hs] at ih2
      generalize nonceTrace P prof _ calls = tr at ih1 ih2
      by_cases h0 : (c.packetCipher.messageCounter + 1) % 224 = 0
      · rw [if_pos h0]
        refine ⟨?_, ?_⟩
        · simp only [List.cons_append, List.nil_append, List.pairwise_cons, List.mem_cons]
          refine ⟨?_, ?_, ih1⟩
          · rintro n (rfl | hn)
            · rw [h1, h2]; omega
            · have := ih2 n hn; omega
          · intro n hn
            have := ih2 n hn; omega
        · simp only [List.cons_append, List.nil_append, List.mem_cons]
          rintro n (rfl | rfl | hn)
          · omega
          · omega
          · exact Nat.le_trans (Nat.le_of_lt (by simpa using hmono)) (ih2 n hn)
      · rw [if_neg h0]
        refine ⟨?_, ?_⟩
        · simp only [List.cons_append, List.nil_append, List.pairwise_cons]
          refine ⟨?_, ih1⟩
          intro n hn
          have := ih2 n hn; omega
        · simp only [List.cons_append, List.nil_append, List.mem_cons]
          rintro n (rfl | hn)
          · omega
          · exact Nat.le_trans (Nat.le_of_lt (by simpa using hmono)) (ih2 n hn)

/-- C07: in every history of fewer than `2^64` calls (including failed and panicking ones) no nonce
is handed to the AEAD twice: neither packet nonces nor re-keying nonces nor one of each. -/
theorem C07_nonces_never_repeat (kL kP : Bytes) (calls : List EncCall)
    (h : calls.length < 2 ^ 64) :
    (nonceTrace P prof ⟨FSStream.new kL, FSAead.new kP⟩ calls).Nodup := by
  refine List.Pairwise.imp ?_ (trace_sorted (P := P) (prof := prof) calls _ ?_).1
  · intro a b hab heq
    subst heq
    omega
  · simpa [FSAead.new] using h

/-- C07: a failed call uses no nonce and leaves the next nonce as it was; a successful one uses
exactly one packet nonce. -/
theorem C07_failed_call_uses_nothing (c : OutboundCipher) (call : EncCall) {c' : OutboundCipher}
    {buf : Bytes} {e : Error}
    (h : c.encrypt P prof call.plaintext call.buffer call.ty call.aad = (c', buf, .err e)) :
    nonceUses c call = [] ∧ c' = c := by
  unfold OutboundCipher.encrypt at h
  split at h
  · rename_i hb
    simp only [Prod.mk.injEq] at h
    refine ⟨?_, h.1.symm⟩
    unfold nonceUses
    rw [if_pos (by exact hb)]
  · simp only at h
    split at h
    · simp at h
    · split at h <;> simp at h

/-- Non-vacuity: a history with a failure and two packets produces two nonces. -/
example : nonceTrace toy .debug ⟨FSStream.new (zeros 32), FSAead.new (zeros 32)⟩
    [⟨[1], zeros 21, .genuine, none⟩, ⟨[1], zeros 3, .genuine, none⟩, ⟨[2], zeros 21, .decoy, none⟩]
    = [zeros 12, 1 :: zeros 11] := by decide +kernel

/-! ## C08 -/

/-- Keystream bytes (nonce, position) read by one call of `FSChaCha20::crypt` on a 3-byte chunk:
three for the mask and, for the last chunk of an epoch, 32 for the next key. -/
def ksUses (c : FSStream) : List (Bytes × Nat) :=
  let n := if (c.chunkCounter + 1) % 224 = 0 then 35 else 3
  (List.range n).map fun j => (c.nonce, c.blockCounter + j)

/-- Keystream bytes read by a history of calls. -/
def ksTrace (P : Prims) (prof : Profile) : FSStream → List Bytes → List (Bytes × Nat)
  | _, [] => []
  | c, chunk :: chunks =>
    ksUses c ++
      match c.crypt P prof chunk with
      | some (c', _) => ksTrace P prof c' chunks
      | none => []

/-- C08, adequacy of the trace: a call depends on the keystream only at the listed positions. -/
theorem C08_uses_adequate (c : FSStream) (chunk : Bytes) (hl : chunk.length = 3) (P' : Prims)
    (hb : c.blockCounter + 3 < 2 ^ 32) (hc : c.chunkCounter + 1 < 2 ^ 32)
    (hag : ∀ u ∈ ksUses c, ∀ k, P'.ks k u.1 u.2 = P.ks k u.1 u.2) :
    c.crypt P' prof chunk = c.crypt P prof chunk := by
  unfold ksUses at hag
  unfold FSStream.crypt
  rw [uadd_lt hb, uadd_lt hc, hl]
  have h1 : P'.ksSlice c.key c.nonce c.blockCounter 3 = P.ksSlice c.key c.nonce c.blockCounter 3 := by
    unfold Prims.ksSlice
    apply List.map_congr_left
    intro j hj
    apply hag (c.nonce, c.blockCounter + j)
    simp only [List.mem_map, List.mem_range] at hj ⊢
    exact ⟨j, by split <;> omega, rfl⟩
  simp only [h1]
  by_cases h0 : (c.chunkCounter + 1) % 224 = 0
  · rw [if_pos h0] at hag
    have h2 : P'.ksSlice c.key c.nonce (c.blockCounter + LENGTH_BYTES) 32
        = P.ksSlice c.key c.nonce (c.blockCounter + LENGTH_BYTES) 32 := by
      unfold Prims.ksSlice
      apply List.map_congr_left
      intro j hj
      apply hag (c.nonce, c.blockCounter + LENGTH_BYTES + j)
      simp only [List.mem_map, List.mem_range] at hj ⊢
      exact ⟨3 + j, by omega, by simp only [LENGTH_BYTES, Prod.mk.injEq, true_and]; omega⟩
    rw [if_pos h0, if_pos h0, h2]
  · rw [if_neg h0, if_neg h0]

private def ksRank (u : Bytes × Nat) : Nat := leNat (slice u.1 4 4) * 1024 + u.2

private theorem rank_ksUses {c : FSStream} (h : c.chunkCounter < 2 ^ 32) {u : Bytes × Nat}
    (hu : u ∈ ksUses c) : ∃ j, j < 35 ∧ ((c.chunkCounter + 1) % 224 ≠ 0 → j < 3) ∧
      ksRank u = c.chunkCounter / 224 * 1024 + c.blockCounter + j := by
  unfold ksUses at hu
  simp only [List.mem_map, List.mem_range] at hu
  obtain ⟨j, hj, rfl⟩ := hu
  refine ⟨j, by split at hj <;> omega, by intro hh; rw [if_neg hh] at hj; exact hj, ?_⟩
  unfold ksRank slice FSStream.nonce
  simp only
  rw [List.append_assoc, drop_append_len _ _ (by simp), take_append_len _ _ (by simp), leNat_leBytes,
    Nat.mod_eq_of_lt (by simp only [REKEY_INTERVAL]; omega)]
  simp only [REKEY_INTERVAL]
  omega

private theorem ksUses_sorted {c : FSStream} :
    (ksUses c).Pairwise (fun a b => ksRank a < ksRank b) := by
  unfold ksUses
  rw [List.pairwise_map]
  refine List.Pairwise.imp ?_ List.pairwise_lt_range
  intro a b hab
  unfold ksRank
  simp only
  omega

private theorem ksTrace_sorted (chunks : List Bytes) (hl : ∀ x ∈ chunks, x.length = 3) (k : Bytes)
    (n : Nat) (c : FSStream) (hat : FSStream.At P k n c) (h : n + chunks.length < 2 ^ 32) :
    (ksTrace P prof c chunks).Pairwise (fun a b => ksRank a < ksRank b) ∧
      ∀ u ∈ ksTrace P prof c chunks, n / 224 * 1024 + 3 * (n % 224) ≤ ksRank u := by
  induction chunks generalizing c n with
  | nil => simp [ksTrace]
  | cons chunk chunks ih =>
    simp only [List.length_cons] at h
    obtain ⟨c', hat', hcr⟩ := hat.crypt (prof := prof) (by omega) chunk (hl _ (by simp))
    obtain ⟨ih1, ih2⟩ := ih (fun x hx => hl x (by simp [hx])) (n + 1) c' hat' (by omega)
    rw [ksTrace, hcr]
    simp only
    have hr := fun u hu => rank_ksUses (c := c) (by rw [hat.1]; omega) (u := u) hu
    rw [hat.1, hat.2.1] at hr
    have hmono := rank_mono n 1024 3 (by omega) (by omega) (by omega)
    refine ⟨?_, ?_⟩
    · rw [List.pairwise_append]
      refine ⟨ksUses_sorted, ih1, ?_⟩
      intro a ha b hb
      obtain ⟨j, hj, hj', hra⟩ := hr a ha
      have := ih2 b hb
      by_cases h0 : (n + 1) % 224 = 0
      · omega
      · have := hj' h0; omega
    · intro u hu
      rw [List.mem_append] at hu
      rcases hu with hu | hu
      · obtain ⟨j, hj, hj', hra⟩ := hr u hu; omega
      · exact Nat.le_trans (Nat.le_of_lt hmono) (ih2 u hu)

/-- C08: in every history of fewer than `2^32` length prefixes no keystream byte is read twice, be
it for a length prefix or for a key derivation. -/
theorem C08_keystream_never_reused (k : Bytes) (chunks : List Bytes)
    (hl : ∀ x ∈ chunks, x.length = 3) (h : chunks.length < 2 ^ 32) :
    (ksTrace P prof (FSStream.new k) chunks).Nodup := by
  refine List.Pairwise.imp ?_
    (ksTrace_sorted (P := P) (prof := prof) chunks hl k 0 _ (FSStream.at_new k) (by omega)).1
  intro a b hab heq
  subst heq
  omega

/-- Non-vacuity: the trace of three packets. -/
example : ksTrace toy .debug (FSStream.new (zeros 32)) [[1, 2, 3], [4, 5, 6]]
    = [(zeros 12, 0), (zeros 12, 1), (zeros 12, 2), (zeros 12, 3), (zeros 12, 4), (zeros 12, 5)] := by
  decide +kernel

/-! ## C09 -/

/-- Encrypt a list of (AAD, content) with the packet cipher; all outputs. -/
def encryptMany (P : Prims) (prof : Profile) : FSAead → List (Bytes × Bytes) →
    Option (FSAead × List (Bytes × Bytes))
  | c, [] => some (c, [])
  | c, (aad, content) :: rest =>
    match c.encrypt P prof aad content with
    | none => none
    | some (c', ct, tag) =>
      match encryptMany P prof c' rest with
      | none => none
      | some (c'', outs) => some (c'', (ct, tag) :: outs)

private theorem encryptMany_at (hP : Lawful P) (k : Bytes) (hist : List (Bytes × Bytes)) (n : Nat)
    (c : FSAead) (hat : FSAead.At P k n c) (h : n + hist.length < 2 ^ 64) :
    ∃ c', encryptMany P prof c hist = some (c',
      hist.mapIdx fun i m =>
        P.sealC (Spec.packetKey P k ((n + i) / 224)) (Spec.packetNonce (n + i)) m.1 m.2) := by
  induction hist generalizing c n with
  | nil => exact ⟨c, rfl⟩
  | cons m rest ih =>
    obtain ⟨aad, content⟩ := m
    simp only [List.length_cons] at h
    obtain ⟨c', hat', he⟩ := hat.encrypt (prof := prof) hP (by omega) aad content
    obtain ⟨c'', hr⟩ := ih (n + 1) c' hat' (by omega)
    refine ⟨c'', ?_⟩
    rw [encryptMany, he]
    simp only [hr, List.mapIdx_cons, Nat.add_zero, Option.some.injEq, Prod.mk.injEq, true_and,
      List.cons.injEq]
    congr 1
    funext i m
    rw [show n + 1 + i = n + (i + 1) by omega]

/-- C09: message number `n` of a packet cipher is sealed with the BIP-324 nonce and epoch key for
`n`, whatever the AADs and contents of all messages of the history are. -/
theorem C09_packet_cipher_conforms (hP : Lawful P) (k : Bytes) (hist : List (Bytes × Bytes))
    (h : hist.length < 2 ^ 64) :
    ∃ c', encryptMany P prof (FSAead.new k) hist = some (c',
      hist.mapIdx fun n m =>
        P.sealC (Spec.packetKey P k (n / 224)) (Spec.packetNonce n) m.1 m.2) := by
  obtain ⟨c', hc⟩ := encryptMany_at (prof := prof) hP k hist 0 (FSAead.new k) (FSAead.at_new k) (by omega)
  refine ⟨c', ?_⟩
  simpa using hc

/-- A whole-packet history: type, contents, AAD. -/
structure Msg where
  ty : PacketType
  contents : Bytes
  aad : Option Bytes
deriving Repr, DecidableEq

/-- Encrypt a list of messages with `encrypt_to_vec`; all packets. -/
def sendAll (P : Prims) (prof : Profile) : OutboundCipher → List Msg →
    Outcome Error (OutboundCipher × List Bytes)
  | o, [] => .ok (o, [])
  | o, m :: ms =>
    match o.encryptToVec P prof m.contents m.ty m.aad with
    | (o', .ok w) =>
      match sendAll P prof o' ms with
      | .ok (o'', ws) => .ok (o'', w :: ws)
      | .err e => .err e
      | .panic => .panic
    | (_, .err e) => .err e
    | (_, .panic) => .panic

theorem sendAll_at (hP : Lawful P) (kL kP : Bytes) (hist : List Msg) (n : Nat)
    (o : OutboundCipher) (hat : OutboundCipher.At P kL kP n o) (h : n + hist.length < 2 ^ 32) :
    ∃ o', OutboundCipher.At P kL kP (n + hist.length) o' ∧
      sendAll P prof o hist = .ok (o', hist.mapIdx fun i m =>
        Spec.packet P kL kP (n + i) (m.ty == .decoy) (m.aad.getD []) m.contents) := by
  induction hist generalizing o n with
  | nil => exact ⟨o, hat, rfl⟩
  | cons m rest ih =>
    simp only [List.length_cons] at h ⊢
    obtain ⟨o', hat', he⟩ := hat.encryptToVec (prof := prof) hP (by omega) m.contents m.ty m.aad
    obtain ⟨o'', hat'', hr⟩ := ih (n + 1) o' hat' (by omega)
    refine ⟨o'', by rwa [show n + (rest.length + 1) = n + 1 + rest.length by omega], ?_⟩
    rw [sendAll, he]
    simp only [hr, List.mapIdx_cons, Nat.add_zero, Outcome.ok.injEq, Prod.mk.injEq, true_and,
      List.cons.injEq]
    congr 1
    funext i m
    rw [show n + 1 + i = n + (i + 1) by omega]

/-- C09 (and C10) at the level of whole packets: every history of fewer than `2^32` packets puts
exactly the BIP-324 packets on the wire. -/
theorem C09_packets_conform (hP : Lawful P) (kL kP : Bytes) (hist : List Msg)
    (h : hist.length < 2 ^ 32) :
    ∃ o', sendAll P prof ⟨FSStream.new kL, FSAead.new kP⟩ hist = .ok (o', hist.mapIdx fun n m =>
      Spec.packet P kL kP n (m.ty == .decoy) (m.aad.getD []) m.contents) := by
  obtain ⟨o', -, ho⟩ := sendAll_at (prof := prof) hP kL kP hist 0 ⟨FSStream.new kL, FSAead.new kP⟩
    ⟨FSStream.at_new kL, FSAead.at_new kP⟩ (by omega)
  exact ⟨o', by simpa using ho⟩

/-- Non-vacuity: the specification packet is a non-trivial byte string that depends on the index
(here before and after the first re-key). -/
example : (Spec.packet toy (zeros 32) (zeros 32) 0 true [] [1, 2]).length = 22 ∧
    Spec.packet toy (zeros 32) (zeros 32) 223 true [] [1, 2] ≠
      Spec.packet toy (zeros 32) (zeros 32) 224 true [] [1, 2] := by decide +kernel

/-! ## C10 -/

/-- Encrypt a list of 3-byte lengths with the length cipher; all outputs. -/
def cryptMany (P : Prims) (prof : Profile) : FSStream → List Bytes → Option (FSStream × List Bytes)
  | c, [] => some (c, [])
  | c, x :: rest =>
    match c.crypt P prof x with
    | none => none
    | some (c', y) =>
      match cryptMany P prof c' rest with
      | none => none
      | some (c'', ys) => some (c'', y :: ys)

private theorem cryptMany_at (k : Bytes) (hist : List Bytes) (hl : ∀ x ∈ hist, x.length = 3)
    (n : Nat) (c : FSStream) (hat : FSStream.At P k n c) (h : n + hist.length < 2 ^ 32) :
    ∃ c', FSStream.At P k (n + hist.length) c' ∧ cryptMany P prof c hist = some (c',
      hist.mapIdx fun i x => Spec.xor x (Spec.lengthMask P k (n + i))) := by
  induction hist generalizing c n with
  | nil => exact ⟨c, hat, rfl⟩
  | cons x rest ih =>
    simp only [List.length_cons] at h ⊢
    obtain ⟨c', hat', he⟩ := hat.crypt (prof := prof) (by omega) x (hl x (by simp))
    obtain ⟨c'', hat'', hr⟩ := ih (fun y hy => hl y (by simp [hy])) (n + 1) c' hat' (by omega)
    refine ⟨c'', by rwa [show n + (rest.length + 1) = n + 1 + rest.length by omega], ?_⟩
    rw [cryptMany, he]
    simp only [hr, List.mapIdx_cons, Nat.add_zero, Option.some.injEq, Prod.mk.injEq, true_and,
      List.cons.injEq, spec_xor]
    congr 1
    funext i m
    rw [show n + 1 + i = n + (i + 1) by omega]

/-- C10 for fewer than `2^32` packets: length prefix number `n` is masked with the BIP-324 keystream
for `n`.  Missing: from packet `2^32 - 1` on, where the code overflows its 32-bit chunk counter
(`C10_overflow_panics`, `C10_overflow_deviates`). -/
theorem C10_length_cipher_conforms_partial (k : Bytes) (hist : List Bytes)
    (hl : ∀ x ∈ hist, x.length = 3) (h : hist.length < 2 ^ 32) :
    ∃ c', cryptMany P prof (FSStream.new k) hist = some (c',
      hist.mapIdx fun n x => Spec.xor x (Spec.lengthMask P k n)) := by
  obtain ⟨c', -, hc⟩ := cryptMany_at (P := P) (prof := prof) k hist hl 0 (FSStream.new k)
    (FSStream.at_new k) (by omega)
  exact ⟨c', by simpa using hc⟩

/-- C10 on the wire, for fewer than `2^32` packets: packet number `n` of a history, whatever the types,
contents and AADs, begins with the three little-endian bytes of the length of its contents, masked with the
BIP-324 keystream for `n`.  Missing: as above. -/
theorem C10_prefix_partial (hP : Lawful P) (kL kP : Bytes) (hist : List Msg) (h : hist.length < 2 ^ 32) :
    ∃ o' ws, sendAll P prof ⟨FSStream.new kL, FSAead.new kP⟩ hist = .ok (o', ws) ∧ ws.length = hist.length ∧
      ∀ n (hn : n < hist.length) (hn' : n < ws.length),
        ws[n].take 3 = Spec.xor (Spec.le 3 hist[n].contents.length) (Spec.lengthMask P kL n) := by
  obtain ⟨o', ho⟩ := C09_packets_conform (prof := prof) hP kL kP hist h
  refine ⟨o', _, ho, by simp, ?_⟩
  intro n hn hn'
  have hl : (Spec.xor (Spec.le 3 hist[n].contents.length) (Spec.lengthMask P kL n)).length = 3 := by
    simp [Spec.xor, Spec.le, Spec.lengthMask]
  rw [List.getElem_mapIdx, Spec.packet]
  rw [List.append_assoc, List.take_append_of_le_length (by omega), List.take_of_length_le (by omega)]

/-- Beside it: two packets, of 2 and of 300 bytes; with the lengths in big endian, or counting the header,
the prefixes would be others. -/
example : Spec.xor (Spec.le 3 300) (Spec.lengthMask toy (zeros 32) 1)
      ≠ Spec.xor (Spec.le 3 301) (Spec.lengthMask toy (zeros 32) 1) ∧
    Spec.xor (Spec.le 3 300) (Spec.lengthMask toy (zeros 32) 1)
      ≠ Spec.xor (Spec.le 3 300).reverse (Spec.lengthMask toy (zeros 32) 1) := by decide +kernel

/-- C10, the state reached after exactly `2^32 - 1` packets (reachable from a fresh cipher). -/
theorem C10_last_state (k : Bytes) : ∃ c, FSStream.At P k (2 ^ 32 - 1) c ∧
    ∃ hist ys, hist.length = 2 ^ 32 - 1 ∧ cryptMany P prof (FSStream.new k) hist = some (c, ys) := by
  obtain ⟨c', hat, hc⟩ := cryptMany_at (P := P) (prof := prof) k (List.replicate (2 ^ 32 - 1) (zeros 3))
    (by intro x hx; rw [List.eq_of_mem_replicate hx]; rfl) 0 (FSStream.new k) (FSStream.at_new k)
    (by rw [List.length_replicate]; omega)
  rw [List.length_replicate, Nat.zero_add] at hat
  exact ⟨c', hat, _, _, List.length_replicate .., hc⟩

/-- C10 is FALSE of the code with overflow checks: packet number `2^32 - 1` panics. -/
theorem C10_overflow_panics (hprof : prof.overflowChecks = true) (k : Bytes) (c : FSStream)
    (hat : FSStream.At P k (2 ^ 32 - 1) c) (chunk : Bytes) : c.crypt P prof chunk = none := by
  rw [FSStream.crypt_none]
  exact ⟨hprof, .inr (by rw [hat.1]; simp)⟩

/-- C10 is FALSE of the code without overflow checks: after packet number `2^32 - 1` the cipher
re-keys in the middle of an epoch (slot 31 of 224) and restarts its epoch number at zero. -/
theorem C10_overflow_deviates (hprof : prof.overflowChecks = false) (k : Bytes) (c : FSStream)
    (hat : FSStream.At P k (2 ^ 32 - 1) c) (chunk : Bytes) (hc : chunk.length = 3) :
    ∃ c', c.crypt P prof chunk = some (c', Spec.xor chunk (Spec.lengthMask P k (2 ^ 32 - 1))) ∧
      c'.chunkCounter = 0 ∧ c'.blockCounter = 0 ∧ c'.nonce = List.replicate 12 0 ∧
      c'.key = P.ksSlice (Spec.lengthKey P k 19173961) (Spec.lengthNonce 19173961) 96 32 := by
  have hm := hat.mask (by omega)
  have hn := hat.nonce (by omega)
  unfold FSStream.crypt
  rw [hc, hm, uadd_lt (by rw [hat.2.1]; simp only [LENGTH_BYTES, u32Mod]; omega)]
  have : uadd prof u32Mod c.chunkCounter 1 = some 0 := by
    rw [hat.1]; simp [uadd, hprof]
  rw [this]
  refine ⟨_, rfl, rfl, rfl, ?_, ?_⟩
  · simp only [FSStream.nonce]; decide
  have e1 : (2 ^ 32 - 1) / 224 = 19173961 := by decide
  have e2 : 3 * ((2 ^ 32 - 1) % 224) + LENGTH_BYTES = 96 := by decide
  simp only
  rw [hn, hat.2.1, hat.2.2, e1, e2]

private theorem toy_ks_ne (key nonce : Bytes) :
    xorBytes (zeros 3) (toy.ksSlice (toy.ksSlice key nonce 96 32) (List.replicate 12 0) 0 (zeros 3).length)
      ≠ Spec.xor (zeros 3) (toy.ksSlice key nonce 96 3) := by
  have hs : ∀ k n p m, toy.ksSlice k n p (m + 1) = toy.ks k n p :: toy.ksSlice k n (p + 1) m := by
    intro k n p m
    unfold Prims.ksSlice
    rw [List.range_succ_eq_map, List.map_cons, List.map_map]
    congr 1
    apply List.map_congr_left
    intro j _
    simp only [Function.comp, Nat.succ_eq_add_one]
    rw [show p + (j + 1) = p + 1 + j by omega]
  intro h
  rw [zeros_length, hs _ _ 0 2, hs _ _ 96 2, hs _ _ 96 31,
    show zeros 3 = 0 :: zeros 2 from rfl] at h
  simp only [xorBytes, Spec.xor, List.zipWith_cons_cons, List.cons.injEq, UInt8.zero_xor] at h
  have h0 := h.1
  generalize toy.ks key nonce 96 = b at h0
  generalize toy.ksSlice key nonce (96 + 1) 31 = tl at h0
  have h1 := congrArg UInt8.toNat h0
  have hz : leNat (List.replicate 12 0) = 0 := by decide
  have hb := UInt8.toNat_lt b
  simp only [toy, hz, leNat, UInt8.toNat_ofNat'] at h1
  omega

/-- C10, the deviation is observable: with the toy keystream the length prefix of packet `2^32` is
not the specified one, in a state reached from a fresh cipher. -/
theorem C10_counterexample : ∃ c c' : FSStream,
    (∃ hist ys, hist.length = 2 ^ 32 - 1 ∧
      cryptMany toy .release (FSStream.new (zeros 32)) hist = some (c, ys)) ∧
    (∃ y, c.crypt toy .release (zeros 3) = some (c', y)) ∧
    ∃ c'' y, c'.crypt toy .release (zeros 3) = some (c'', y) ∧
      y ≠ Spec.xor (zeros 3) (Spec.lengthMask toy (zeros 32) (2 ^ 32)) := by
  obtain ⟨c, hat, hreach⟩ := C10_last_state (P := toy) (prof := .release) (zeros 32)
  obtain ⟨c', h1, h2, h3, h4, h5⟩ := C10_overflow_deviates (prof := .release) rfl (zeros 32) c hat
    (zeros 3) rfl
  refine ⟨c, c', hreach, ⟨_, h1⟩, ?_⟩
  cases h6 : c'.crypt toy .release (zeros 3) with
  | none => rw [FSStream.crypt_none] at h6; simp [Profile.release] at h6
  | some r =>
    obtain ⟨c'', y⟩ := r
    refine ⟨c'', y, rfl, ?_⟩
    rw [FSStream.crypt_eq] at h6
    cases h7 : c'.crypt toy .release [] with
    | none => simp [h7] at h6
    | some q =>
      simp only [h7, Option.map_some, Option.some.injEq, Prod.mk.injEq] at h6
      rw [← h6.2, h3, h4, h5]
      have hmask : Spec.lengthMask toy (zeros 32) (2 ^ 32)
          = toy.ksSlice (Spec.lengthKey toy (zeros 32) 19173961) (Spec.lengthNonce 19173961) 96 3 := by
        unfold Spec.lengthMask Prims.ksSlice
        have e1 : 2 ^ 32 / Spec.interval = 19173961 := by decide
        have e2 : 3 * (2 ^ 32 % Spec.interval) = 96 := by decide
        rw [e1, e2]
      rw [hmask]
      generalize Spec.lengthKey toy (zeros 32) 19173961 = key
      generalize Spec.lengthNonce 19173961 = nonce
      intro heq
      exact toy_ks_ne key nonce heq

end Bip324
