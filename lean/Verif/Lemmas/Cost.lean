import Verif.Model.Cost
import Verif.Props.IoHandshake
import Verif.Lemmas.HandshakeAccept

/-! # Helper lemmas on what a peer can cost -/

namespace Bip324

variable {P : Prims} {prof : Profile}

/-! ## The stages of the handshake -/

/-- Either the handshake stops before the search for the terminator, or it runs the two loops. -/
theorem handshake_stages (A : Api) (hP : Lawful P) (magic : Bytes) (role : Role) (rng : Bytes)
    (garbage : Option Bytes) (decoys : Option (List Bytes)) (reader : Source) (writer : Sink) {w : Sink} {log : HsLog}
    {r : Outcome ProtocolError (InboundCipher × OutboundCipher × A.Session)}
    (h : handshake A P prof magic role rng garbage decoys reader writer = (w, log, r)) :
    (log = ⟨[], []⟩ ∧ ∀ x, r ≠ .ok x) ∨
    ∃ (h3 : HsSentVersion) (key gb : Bytes) (reader1 reader2 : Source),
      h3.remoteTerminator.length = 16 ∧ h3.cipher.inbound.packetCipher.messageCounter = 0 ∧
      Source.reader.readExact A.retry reader 64 = (reader1, .ok key) ∧
      Source.reader.readExact A.retry reader1 16 = (reader2, .ok gb) ∧
      (∀ reader1' reader2' gb', Source.reader.readExact A.retry reader1' 16 = (reader2', .ok gb') →
        ∀ reader', Source.reader.readExact A.retry reader' 64 = (reader1', .ok key) →
        (handshake A P prof magic role rng garbage decoys reader' writer).2.1.garbage
          = (garbageLoop h3 gb' reader2').1) ∧
      log.garbage = (garbageLoop h3 gb reader2).1 ∧
      ((log.packets = [] ∧ (∀ x, (garbageLoop h3 gb reader2).2 ≠ .ok x) ∧ ∀ x, r ≠ .ok x) ∨
        ∃ h4 n gb2 reader3, (garbageLoop h3 gb reader2).2 = .ok (h4, n, gb2, reader3) ∧
          log.packets = (versionLoop A P prof h4 (A.mkSession (gb2.drop n) reader3)).1 ∧
          r = (versionLoop A P prof h4 (A.mkSession (gb2.drop n) reader3)).2) := by
  unfold handshake at h ⊢
  cases hn : HsInitialized.newWithRng P prof magic role rng with
  | panic => rw [hn] at h; simp only [Prod.mk.injEq] at h; obtain ⟨-, rfl, rfl⟩ := h; exact .inl ⟨rfl, by simp⟩
  | err e => rw [hn] at h; simp only [Prod.mk.injEq] at h; obtain ⟨-, rfl, rfl⟩ := h; exact .inl ⟨rfl, by simp⟩
  | ok h0 =>
  rw [hn] at h
  simp only at h ⊢
  unfold handshakeWithInitialized at h ⊢
  cases hsk : h0.sendKey garbage (zeros (HsInitialized.sendKeyLen garbage)) with
  | mk keyBuffer x =>
  rw [hsk] at h
  cases x with
  | panic => simp only [Prod.mk.injEq] at h; obtain ⟨-, rfl, rfl⟩ := h; exact .inl ⟨rfl, by simp⟩
  | err e => simp only [Prod.mk.injEq] at h; obtain ⟨-, rfl, rfl⟩ := h; exact .inl ⟨rfl, by simp⟩
  | ok h1 =>
  simp only at h ⊢
  cases hw1 : writer.send A.retry keyBuffer with
  | mk writer1 x =>
  rw [hw1] at h
  cases x with
  | error k => simp only [Prod.mk.injEq] at h; obtain ⟨-, rfl, rfl⟩ := h; exact .inl ⟨rfl, by simp⟩
  | ok u =>
  simp only at h ⊢
  cases hr1 : Source.reader.readExact A.retry reader NUM_ELLIGATOR_SWIFT_BYTES with
  | mk reader1 x =>
  rw [hr1] at h
  cases x with
  | error k => simp only [Prod.mk.injEq] at h; obtain ⟨-, rfl, rfl⟩ := h; exact .inl ⟨rfl, by simp⟩
  | ok key =>
  simp only at h ⊢
  cases hk : h1.receiveKey P key with
  | panic => rw [hk] at h; simp only [Prod.mk.injEq] at h; obtain ⟨-, rfl, rfl⟩ := h; exact .inl ⟨rfl, by simp⟩
  | err e => rw [hk] at h; simp only [Prod.mk.injEq] at h; obtain ⟨-, rfl, rfl⟩ := h; exact .inl ⟨rfl, by simp⟩
  | ok h2 =>
  rw [hk] at h
  simp only at h ⊢
  cases hv : h2.sendVersion P prof (zeros (HsReceivedKey.sendVersionLen decoys)) decoys with
  | mk versionBuffer x =>
  rw [hv] at h
  cases x with
  | panic => simp only [Prod.mk.injEq] at h; obtain ⟨-, rfl, rfl⟩ := h; exact .inl ⟨rfl, by simp⟩
  | err e => simp only [Prod.mk.injEq] at h; obtain ⟨-, rfl, rfl⟩ := h; exact .inl ⟨rfl, by simp⟩
  | ok h3 =>
  simp only at h ⊢
  cases hw2 : writer1.send A.retry versionBuffer with
  | mk writer2 x =>
  rw [hw2] at h
  cases x with
  | error k => simp only [Prod.mk.injEq] at h; obtain ⟨-, rfl, rfl⟩ := h; exact .inl ⟨rfl, by simp⟩
  | ok u =>
  simp only at h ⊢
  cases hr2 : Source.reader.readExact A.retry reader1 NUM_GARBAGE_TERMINATOR_BYTES with
  | mk reader2 x =>
  rw [hr2] at h
  cases x with
  | error k => simp only [Prod.mk.injEq] at h; obtain ⟨-, rfl, rfl⟩ := h; exact .inl ⟨rfl, by simp⟩
  | ok gb =>
  simp only at h ⊢
  have ht : h3.remoteTerminator.length = 16 := by
    rw [sendVersion_terminator hv]; exact receiveKey_terminators hP hk _
  have hc : h3.cipher.inbound.packetCipher.messageCounter = 0 := by
    unfold HsReceivedKey.sendVersion at hv
    simp only at hv
    split at hv
    · simp at hv
    · split at hv
      · simp at hv
      · simp at hv
      · split at hv
        · simp at hv
        · simp at hv
        · simp only [Prod.mk.injEq, Outcome.ok.injEq] at hv
          rw [← hv.2]
          cases h2.role <;> rfl
  refine .inr ⟨h3, key, gb, reader1, reader2, ht, hc, ?_, hr2, ?_, ?_⟩
  · first | exact hr1 | rfl
  · intro reader1' reader2' gb' e2 reader' e1
    rw [show NUM_ELLIGATOR_SWIFT_BYTES = 64 from rfl, e1]
    simp only [hk, hv, hw2]
    rw [show NUM_GARBAGE_TERMINATOR_BYTES = 16 from rfl, e2]
    simp only
    cases hg : garbageLoop h3 gb' reader2' with
    | mk glog x => cases x <;> rfl
  · cases hg : garbageLoop h3 gb reader2 with
    | mk glog x =>
    rw [hg] at h
    cases x with
    | panic =>
      simp only [Prod.mk.injEq] at h; obtain ⟨-, rfl, rfl⟩ := h; exact ⟨rfl, .inl ⟨rfl, by simp, by simp⟩⟩
    | err e =>
      simp only [Prod.mk.injEq] at h; obtain ⟨-, rfl, rfl⟩ := h; exact ⟨rfl, .inl ⟨rfl, by simp, by simp⟩⟩
    | ok x =>
      obtain ⟨h4, n, gb2, reader3⟩ := x
      simp only [Prod.mk.injEq] at h
      obtain ⟨-, rfl, rfl⟩ := h
      exact ⟨rfl, .inr ⟨h4, n, gb2, reader3, rfl, rfl, rfl⟩⟩

/-! ## Searches -/

/-- `1 + 2 + ... + k`. -/
def tri : Nat → Nat
  | 0 => 0
  | k + 1 => tri k + (k + 1)

theorem tri_mono {a b : Nat} (h : a ≤ b) : tri a ≤ tri b := by
  induction b with
  | zero => have : a = 0 := by omega
            subst this; exact Nat.le_refl _
  | succ b ih =>
    rcases Nat.lt_or_ge a (b + 1) with h' | h'
    · have := ih (by omega); rw [tri]; omega
    · have : a = b + 1 := by omega
      rw [this]; exact Nat.le_refl _

theorem garbageLoop_cost (h : HsSentVersion) (ht : h.remoteTerminator.length = 16) (buf : Bytes) (src : Source)
    (hb : 16 ≤ buf.length) :
    (garbageLoop h buf src).1.length + (min buf.length 4111 - 16) ≤ 4096 ∧
    ((garbageLoop h buf src).1.map fun n => min n 4111 - 15).sum + tri (min buf.length 4111 - 16) ≤ tri 4096 := by
  have base : 1 + (min buf.length 4111 - 16) ≤ 4096 ∧
      (min buf.length 4111 - 15) + tri (min buf.length 4111 - 16) ≤ tri 4096 := by
    refine ⟨by omega, ?_⟩
    have e : tri (min buf.length 4111 - 15) = tri (min buf.length 4111 - 16) + (min buf.length 4111 - 15) := by
      rw [show min buf.length 4111 - 15 = (min buf.length 4111 - 16) + 1 by omega, tri]
    have := tri_mono (a := min buf.length 4111 - 15) (b := 4096) (by omega)
    omega
  induction hs : src.size using Nat.strongRecOn generalizing buf src with
  | ind m ih =>
  rw [garbageLoop_eq]
  cases hr : h.receiveGarbage buf with
  | panic => simpa using base
  | err e => simpa using base
  | ok g =>
    cases g with
    | foundGarbage h' c => simpa using base
    | needMoreData h' =>
      obtain ⟨rfl, hlt, -⟩ := (C21_need_more h ht _ h').1 hr
      simp only
      cases hrd : src.read 256 with
      | mk src' r =>
      cases r with
      | err k => simpa using base
      | ok bs =>
        cases bs with
        | nil => simpa using base
        | cons b bs =>
          have hd := Source.read_dec _ _ _ _ (by omega) hrd
          simp only [reduceCtorEq, and_false, or_false, ReadRes.ok.injEq] at hd
          have hl : (buf ++ b :: bs).length ≥ buf.length + 1 := by simp
          generalize hbuf' : buf ++ b :: bs = buf' at hl
          have e : ∀ k, 16 ≤ k → tri (k - 15) = tri (k - 16) + (k - 15) := by
            intro k hk
            rw [show k - 15 = (k - 16) + 1 by omega, tri]
          have base' : 1 + (min buf'.length 4111 - 16) ≤ 4096 ∧
              (min buf'.length 4111 - 15) + tri (min buf'.length 4111 - 16) ≤ tri 4096 := by
            refine ⟨by omega, ?_⟩
            have e1 := e (min buf'.length 4111) (by omega)
            have := tri_mono (a := min buf'.length 4111 - 15) (b := 4096) (by omega)
            omega
          obtain ⟨i1, i2⟩ := ih src'.size (by omega) buf' src' (by omega) base' rfl
          have e1 := e (min buf.length 4111) (by omega)
          have e2 := tri_mono (a := min buf.length 4111 - 15) (b := min buf'.length 4111 - 16) (by omega)
          simp only [hbuf', List.length_cons, List.map_cons, List.sum_cons]
          exact ⟨by omega, by omega⟩

/-- A search compares at most one window per position; all of them when the terminator is not there. -/
theorem searchCost_spec (h : HsSentVersion) (ht : h.remoteTerminator.length = 16) (buf : Bytes) :
    h.searchCost buf ≤ min buf.length 4111 - 15 ∧
    ((∀ i ≤ 4095, ¬ Spec.OccursAt h.remoteTerminator buf i) → h.searchCost buf = min buf.length 4111 - 15) := by
  unfold HsSentVersion.searchCost windowsCompared
  simp only [MAX_NUM_GARBAGE_BYTES, NUM_GARBAGE_TERMINATOR_BYTES]
  cases hw : windowPosition (buf.take (min buf.length (4095 + 16))) h.remoteTerminator with
  | none =>
    simp only [List.length_take, ht]
    exact ⟨by omega, fun _ => by omega⟩
  | some i =>
    obtain ⟨hocc, -⟩ := (windowPosition_some ht).1 hw
    have hle := OccursAt.le hocc
    rw [List.length_take] at hle
    simp only
    refine ⟨by omega, fun hno => ?_⟩
    have hocc' : Spec.OccursAt h.remoteTerminator buf i := by
      obtain ⟨a, b, e, hi⟩ := hocc
      refine ⟨a, b ++ buf.drop (min buf.length (4095 + 16)), ?_, hi⟩
      have := List.take_append_drop (min buf.length (4095 + 16)) buf
      rw [e] at this
      rw [← List.append_assoc]
      exact this.symm
    exact absurd hocc' (hno i (by omega))

/-! ## Handshake packets -/

theorem rekey_counter_le {c c' : FSAead} {aad : Bytes} (h : c.rekey P prof aad = some c') :
    c'.messageCounter ≤ c.messageCounter + 1 := by
  unfold FSAead.rekey at h
  split at h
  · cases h
  · rename_i next hu
    simp only [Option.some.injEq] at h
    subst h
    unfold uadd at hu
    split at hu
    · simp only [Option.some.injEq] at hu; simp only; omega
    · split at hu
      · cases hu
      · simp only [Option.some.injEq] at hu
        subst hu
        exact Nat.mod_le _ _

/-- The message counter after one packet of the handshake. -/
def VersionResult.counter : VersionResult → Nat
  | .complete c => c.inbound.packetCipher.messageCounter
  | .decoy h => h.cipher.inbound.packetCipher.messageCounter

theorem receiveVersion_counter {h : HsReceivedGarbage} {ct buf : Bytes} {v : VersionResult}
    (hv : h.receiveVersion P prof ct = (buf, .ok v)) :
    v.counter ≤ h.cipher.inbound.packetCipher.messageCounter + 1 := by
  unfold HsReceivedGarbage.receiveVersion at hv
  simp only at hv
  cases hd : h.cipher.inbound.decryptInPlace P prof ct h.remoteGarbage with
  | mk i r =>
  obtain ⟨b, r⟩ := r
  rw [hd] at hv
  cases r with
  | err e => simp at hv
  | panic => simp at hv
  | ok x =>
  obtain ⟨ty, sl⟩ := x
  have hi : i.packetCipher.messageCounter ≤ h.cipher.inbound.packetCipher.messageCounter + 1 := by
    unfold InboundCipher.decryptInPlace at hd
    split at hd
    · simp at hd
    · simp only at hd
      split at hd
      · simp at hd
      · simp at hd
      · rename_i pc plain hdec
        have hpc : pc.messageCounter ≤ h.cipher.inbound.packetCipher.messageCounter + 1 := by
          unfold FSAead.decrypt at hdec
          split at hdec
          · cases hdec
          · split at hdec
            · cases hdec
            · rename_i c' hrk
              simp only [FSAead.DecryptResult.ok.injEq] at hdec
              rw [← hdec.1]
              exact rekey_counter_le hrk
        split at hd
        · simp at hd
        · simp only [Prod.mk.injEq] at hd
          rw [← hd.1]
          exact hpc
  simp only at hv
  cases ty with
  | genuine =>
    simp only [Prod.mk.injEq, Outcome.ok.injEq] at hv
    rw [← hv.2]; exact hi
  | decoy =>
    simp only [Prod.mk.injEq, Outcome.ok.injEq] at hv
    rw [← hv.2]; exact hi

theorem decryptPacketLen_counter {h h1 : HsReceivedGarbage} {lb : Bytes} {r : Outcome Error Nat}
    (hd : h.decryptPacketLen P prof lb = (h1, r)) :
    h1.cipher.inbound.packetCipher = h.cipher.inbound.packetCipher := by
  unfold HsReceivedGarbage.decryptPacketLen at hd
  simp only at hd
  unfold InboundCipher.decryptPacketLen at hd
  cases hc : h.cipher.inbound.lengthCipher.crypt P prof lb with
  | none => simp only [hc, Prod.mk.injEq] at hd; rw [← hd.1]
  | some x => simp only [hc, Prod.mk.injEq] at hd; rw [← hd.1]

/-- What the version loop allocated has been received, but for the last packet; and each packet moves the counter
by at most one. -/
theorem versionLoop_cost {A : Api} (B : A.Abs) (h : HsReceivedGarbage) (s : A.Session) :
    ((versionLoop A P prof h s).1.dropLast.map (· + 3)).sum ≤ (B.abs s).bytes.length ∧
    ∀ i o s', (versionLoop A P prof h s).2 = .ok (i, o, s') →
      ((versionLoop A P prof h s).1.map (· + 3)).sum + (B.abs s').bytes.length = (B.abs s).bytes.length ∧
      i.packetCipher.messageCounter
        ≤ h.cipher.inbound.packetCipher.messageCounter + (versionLoop A P prof h s).1.length := by
  induction hs : A.reader.size s using Nat.strongRecOn generalizing h s with
  | ind m ih =>
  rw [versionLoop_eq]
  cases h1 : A.reader.readExact A.retry s NUM_LENGTH_BYTES with
  | mk s1 r1 =>
  cases r1 with
  | error k => simp
  | ok lb =>
    obtain ⟨hlb, hb1⟩ := (sess_readExact_bytes B _ _ _ h1).ok
    have hlen1 := congrArg List.length hb1
    rw [List.length_append, hlb] at hlen1
    have e3 : NUM_LENGTH_BYTES = 3 := rfl
    simp only
    cases hd : h.decryptPacketLen P prof lb with
    | mk g r =>
    have hctr := decryptPacketLen_counter hd
    cases r with
    | panic => simp
    | err e => simp
    | ok len =>
      simp only
      by_cases hl : len > MAX_PACKET_SIZE_FOR_ALLOCATION
      · rw [if_pos hl]; simp
      rw [if_neg hl]
      cases h2 : A.reader.readExact A.retry s1 len with
      | mk s2 r2 =>
      cases r2 with
      | error k => simp
      | ok pb =>
        obtain ⟨hpb, hb2⟩ := (sess_readExact_bytes B _ _ _ h2).ok
        have hlen2 := congrArg List.length hb2
        rw [List.length_append, hpb] at hlen2
        simp only
        cases hv : g.receiveVersion P prof pb with
        | mk b r =>
        cases r with
        | panic => simp
        | err e => simp
        | ok v =>
          have hvc := receiveVersion_counter hv
          rw [hctr] at hvc
          cases v with
          | complete c =>
            simp only [Outcome.ok.injEq, Prod.mk.injEq]
            refine ⟨by simp, ?_⟩
            rintro i o s' ⟨rfl, rfl, rfl⟩
            refine ⟨?_, hvc⟩
            simp only [List.map_cons, List.map_nil, List.sum_cons, List.sum_nil]
            omega
          | decoy g2 =>
            have a := (A.reader.readExact_size _ _ _ _ _ _ h1).2 (by decide) ⟨_, rfl⟩
            have b := (A.reader.readExact_size _ _ _ _ _ _ h2).1
            obtain ⟨i1, i2⟩ := ih (A.reader.size s2) (by omega) g2 s2 rfl
            simp only
            generalize hr : versionLoop A P prof g2 s2 = res at i1 i2
            obtain ⟨log, r⟩ := res
            simp only [VersionResult.counter] at i1 i2 hvc ⊢
            refine ⟨?_, ?_⟩
            · cases log with
              | nil => simp
              | cons x xs =>
                rw [List.dropLast_cons_of_ne_nil (by simp)]
                simp only [List.map_cons, List.sum_cons]
                omega
            · intro i o s' he
              obtain ⟨j1, j2⟩ := i2 i o s' he
              simp only [List.map_cons, List.sum_cons, List.length_cons]
              exact ⟨by omega, by omega⟩

/-- The ciphers after one search. -/
def GarbageResult.cipher : GarbageResult → CipherSession
  | .foundGarbage h _ => h.cipher
  | .needMoreData h => h.cipher

/-- The search leaves the ciphers alone. -/
theorem receiveGarbage_cipher {h : HsSentVersion} {buf : Bytes} {g : GarbageResult} (hr : h.receiveGarbage buf = .ok g) :
    g.cipher = h.cipher := by
  unfold HsSentVersion.receiveGarbage at hr
  split at hr
  · simp only [Outcome.ok.injEq] at hr; rw [← hr]; rfl
  · simp only [Outcome.ok.injEq] at hr; rw [← hr]; rfl
  · cases hr
  · cases hr

/-- The garbage loop hands over exactly the bytes it was given. -/
theorem garbageLoop_bytes (h : HsSentVersion) (buf : Bytes) (src : Source) {h4 : HsReceivedGarbage} {n : Nat}
    {buf' : Bytes} {src' : Source} (he : (garbageLoop h buf src).2 = .ok (h4, n, buf', src')) :
    buf'.length + src'.bytes.length = buf.length + src.bytes.length ∧ h4.cipher = h.cipher := by
  induction hs : src.size using Nat.strongRecOn generalizing h buf src with
  | ind m ih =>
  rw [garbageLoop_eq] at he
  cases hr : h.receiveGarbage buf with
  | panic => simp [hr] at he
  | err e => simp [hr] at he
  | ok g =>
    rw [hr] at he
    have hg := receiveGarbage_cipher hr
    cases g with
    | foundGarbage h' c =>
      simp only [Outcome.ok.injEq, Prod.mk.injEq] at he
      obtain ⟨rfl, -, rfl, rfl⟩ := he
      exact ⟨rfl, hg⟩
    | needMoreData h' =>
      simp only [GarbageResult.cipher] at he hg
      cases hrd : src.read 256 with
      | mk src1 r =>
      rw [hrd] at he
      cases r with
      | err k => simp at he
      | ok bs =>
        cases bs with
        | nil => simp at he
        | cons b bs =>
          have hd := Source.read_dec _ _ _ _ (by omega) hrd
          simp only [reduceCtorEq, and_false, or_false, ReadRes.ok.injEq] at hd
          obtain ⟨i1, i2⟩ := ih src1.size (by omega) h' (buf ++ b :: bs) src1 he rfl
          have hbt := (Source.read_bytes _ _ hrd)
          have := congrArg List.length hbt.1
          simp only [List.length_append] at this i1
          exact ⟨by omega, by rw [i2, hg]⟩

end Bip324
