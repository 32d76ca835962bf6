import Verif.Props.Interop
import Verif.Props.NoPanic
import Verif.Props.Schedule
import Verif.Lemmas.Accept

/-!
# C99: connections of any length

Released builds wrap the `u32` counters (C10), so a connection goes on beyond 2^32 packets; two ends of this library
keep step because both wrap.  Checked builds stop there.
-/

namespace Bip324

open Concrete

variable {P : Prims} {prof : Profile}

/-! ## Without overflow checks there is no bound -/

theorem decryptPacketLen_release (hprof : prof.overflowChecks = false) (c : InboundCipher) (b : Bytes) :
    ∃ c' n, c.decryptPacketLen P prof b = (c', .ok n) ∧ 17 ≤ n := by
  unfold InboundCipher.decryptPacketLen
  cases h : c.lengthCipher.crypt P prof b with
  | none => rw [FSStream.crypt_none, hprof] at h; simp at h
  | some x => exact ⟨_, _, rfl, by simp only [NUM_HEADER_BYTES, NUM_TAG_BYTES]; omega⟩

theorem decrypt_release (hP : Lawful P) (hprof : prof.overflowChecks = false) (c : InboundCipher) (ct buf : Bytes)
    (aad : Option Bytes) : (c.decrypt P prof ct buf aad).2.2 ≠ .panic := by
  by_cases hs : ct.length < 17
  · unfold InboundCipher.decrypt
    rw [if_pos (by simpa [NUM_TAG_BYTES, NUM_HEADER_BYTES] using hs)]
    simp
  · obtain ⟨msg, tag, rfl, hl, ht, -⟩ := split_ct (ct := ct) (by omega)
    rw [InboundCipher.decrypt_append hP c msg tag buf aad hl ht]
    by_cases hb : buf.length < msg.length
    · rw [if_pos hb]; simp
    rw [if_neg hb]
    cases P.openC c.packetCipher.key c.packetCipher.nonce (aad.getD []) msg tag with
    | none => simp
    | some plain =>
      cases h : c.packetCipher.rekey P prof (aad.getD []) with
      | none => rw [FSAead.rekey_none, hprof] at h; simp at h
      | some pc => simp

theorem decryptToVec_release (hP : Lawful P) (hprof : prof.overflowChecks = false) (c : InboundCipher) (ct : Bytes)
    (h16 : 16 ≤ ct.length) (aad : Option Bytes) : (c.decryptToVec P prof ct aad).2 ≠ .panic := by
  obtain ⟨-, h2, h3⟩ := C14_to_vec_partial (P := P) (prof := prof) c ct aad h16
  by_cases hb : 4000014 < ct.length - 16
  · rw [h2 hb]; simp
  · rw [h3 (by omega)]
    have hn := decrypt_release (prof := prof) hP hprof c ct (List.replicate (ct.length - 16) 0) aad
    cases hd : c.decrypt P prof ct (List.replicate (ct.length - 16) 0) aad with
    | mk c1 y =>
    obtain ⟨b, z⟩ := y
    rw [hd] at hn
    cases z <;> simp_all

/-- C99: without overflow checks a blocking read never panics, whatever the peer has sent, and however many packets before it; nor does
looking at what it returns. -/
theorem C99_read (hP : Lawful P) (hprof : prof.overflowChecks = false) (r : SyncReader) :
    (r.read P prof).2 ≠ .panic ∧ ∀ p, (r.read P prof).2 = .ok p → p.Usable := by
  unfold SyncReader.read
  cases h1 : SyncSession.reader.readExact true r.reader NUM_LENGTH_BYTES with
  | mk s1 r1 =>
  cases r1 with
  | error k => exact ⟨by simp, by simp⟩
  | ok lb =>
  obtain ⟨c', n, e, h17⟩ := decryptPacketLen_release (P := P) hprof r.cipher lb
  simp only [e]
  cases h2 : SyncSession.reader.readExact true s1 n with
  | mk s2 r2 =>
  cases r2 with
  | error k => exact ⟨by simp, by simp⟩
  | ok pb =>
  have hpb : pb.length = n := by
    have := readExact_length SyncSession.reader true (fun s n s' bs => SyncSession.read_length s n)
      _ _ _ h2
    simpa using this
  have hn := decryptToVec_release (prof := prof) hP hprof c' pb (by omega) none
  cases h5 : c'.decryptToVec P prof pb none with
  | mk c2 z =>
  rw [h5] at hn
  simp only [h5]
  cases z with
  | panic => exact absurd rfl hn
  | err e => exact ⟨by simp, by simp⟩
  | ok x =>
    obtain ⟨ty, buf⟩ := x
    obtain ⟨hmk, hus⟩ := mkDecrypted_usable (prof := prof) (decryptToVec_ok_nonempty h5)
    simp only [hmk]
    exact ⟨by simp, by rintro p hp; cases hp; exact hus⟩

/-- What holds of an asynchronous reader between polls: the buffer is not overfull, and a payload has at least 17 bytes. -/
def AsyncReader.Fits (r : AsyncReader) : Prop :=
  match r.state with
  | .readingLength b n => n ≤ b.length
  | .readingPayload b n => n ≤ b.length ∧ 17 ≤ b.length

theorem pollPayload_release (hP : Lawful P) (hprof : prof.overflowChecks = false) (c : InboundCipher) (s : AsyncSession) {b : Bytes}
    {n : Nat} (hn : n ≤ b.length) (h17 : 17 ≤ b.length) {r' : AsyncReader} {x : PollResult}
    (h : AsyncReader.pollPayload P prof c s b n = (r', x)) :
    r'.Fits ∧ x ≠ .ready .panic ∧ ∀ p, x = .ready (.ok p) → p.Usable := by
  unfold AsyncReader.pollPayload at h
  have hf := pollFill_spec s b n hn
  cases hp : pollFill s b n with
  | pending s' b' n' =>
    rw [hp] at hf
    simp only [hp, Prod.mk.injEq] at h
    obtain ⟨rfl, rfl⟩ := h
    exact ⟨⟨hf.1, by rw [hf.2.1]; exact h17⟩, by simp, by simp⟩
  | err s' b' n' k =>
    rw [hp] at hf
    simp only [hp, Prod.mk.injEq] at h
    obtain ⟨rfl, rfl⟩ := h
    exact ⟨⟨by have := hf.1; omega, by rw [hf.2.1]; exact h17⟩, by simp, by simp⟩
  | full s' b' n' =>
    rw [hp] at hf
    have hb : 17 ≤ b'.length := by rw [hf.2.1]; exact h17
    have hdl : InboundCipher.decryptionBufferLen prof b'.length = some (b'.length - 16) := by
      simp only [InboundCipher.decryptionBufferLen, usub, NUM_TAG_BYTES]
      rw [if_pos (by omega)]
    simp only [hp, hdl] at h
    have hnp := decrypt_release (prof := prof) hP hprof c b' (zeros (b'.length - 16)) none
    cases h5 : c.decrypt P prof b' (zeros (b'.length - 16)) none with
    | mk c2 y =>
    obtain ⟨buf, z⟩ := y
    rw [h5] at hnp h
    cases z with
    | panic => exact absurd rfl hnp
    | err e =>
      simp only [Prod.mk.injEq] at h
      obtain ⟨rfl, rfl⟩ := h
      exact ⟨⟨by omega, hb⟩, by simp, by simp⟩
    | ok ty =>
      obtain ⟨hmk, hus⟩ := mkDecrypted_usable (prof := prof) (decrypt_ok_nonempty h5)
      simp only [hmk, Prod.mk.injEq] at h
      obtain ⟨rfl, rfl⟩ := h
      refine ⟨Nat.zero_le _, by simp, ?_⟩
      intro p hp
      simp only [PollResult.ready.injEq, Outcome.ok.injEq] at hp
      exact hp ▸ hus

theorem poll_release (hP : Lawful P) (hprof : prof.overflowChecks = false) {r r' : AsyncReader} (hr : r.Fits) {x : PollResult}
    (h : r.poll P prof = (r', x)) : r'.Fits ∧ x ≠ .ready .panic ∧ ∀ p, x = .ready (.ok p) → p.Usable := by
  unfold AsyncReader.poll at h
  obtain ⟨c, s, st⟩ := r
  cases st with
  | readingPayload b n => exact pollPayload_release hP hprof c s hr.1 hr.2 h
  | readingLength b n =>
    have hf := pollFill_spec s b n hr
    simp only at h
    cases hp : pollFill s b n with
    | pending s' b' n' =>
      rw [hp] at hf
      simp only [hp, Prod.mk.injEq] at h
      obtain ⟨rfl, rfl⟩ := h
      exact ⟨hf.1, by simp, by simp⟩
    | err s' b' n' k =>
      rw [hp] at hf
      simp only [hp, Prod.mk.injEq] at h
      obtain ⟨rfl, rfl⟩ := h
      exact ⟨by have := hf.1; simp only [AsyncReader.Fits]; omega, by simp, by simp⟩
    | full s' b' n' =>
      obtain ⟨c', k, e, h17⟩ := decryptPacketLen_release (P := P) hprof c b'
      simp only [hp, e] at h
      exact pollPayload_release hP hprof c' s' (by simp) (by simpa using h17) h

/-- C99: without overflow checks no schedule of polls and cancellations of the asynchronous read panics, whatever the peer sends, from
any state of the ciphers. -/
theorem C99_polls (hP : Lawful P) (hprof : prof.overflowChecks = false) (es : List ReadEvent) : ∀ {r : AsyncReader}, r.Fits →
    ∀ x ∈ (r.run P prof es).2, x ≠ .panic ∧ ∀ p, x = .ok p → p.Usable := by
  induction es with
  | nil => intro r _ x hx; simp [AsyncReader.run] at hx
  | cons ev es ih =>
    intro r hr x hx
    cases ev with
    | cancel => exact ih hr x hx
    | poll =>
      unfold AsyncReader.run at hx
      cases hp : r.poll P prof with
      | mk r1 y =>
      obtain ⟨h1, h2, h3⟩ := poll_release hP hprof hr hp
      rw [hp] at hx
      cases y with
      | pending => exact ih h1 x hx
      | ready z =>
        simp only [List.mem_cons] at hx
        rcases hx with rfl | hx
        · exact ⟨fun h => h2 (by rw [h]), fun p h => h3 p (by rw [h])⟩
        · exact ih h1 x hx

/-- Writes over a reliable transport. -/
theorem writeMany_release (hP : Lawful P) (hprof : prof.overflowChecks = false) (f : Flavour) (ps : List Payload) :
    ∀ {w : Writer}, w.writer.Reliable f.retry → (∀ p ∈ ps, p.Usable) →
      ∃ w' sent, w.writeMany f P prof ps = (w', ps.map fun _ => .ok ()) ∧ w'.writer.out = w.writer.out ++ sent := by
  induction ps with
  | nil => intro w _ _; exact ⟨w, [], rfl, by simp⟩
  | cons p ps ih =>
    intro w hw hp
    obtain ⟨⟨c, hc⟩, t, ht⟩ := hp p (by simp)
    obtain ⟨o', pkt, he⟩ := C01_encrypt_progress (prof := prof) hP w.cipher c t none (.inl hprof)
    obtain ⟨s, e1, e2, e3⟩ := C34_reliable (P := P) (prof := prof) f w p ⟨ht, hc⟩ he hw
    obtain ⟨w', sent, g1, g2⟩ := ih (w := ⟨o', s⟩) e3 (fun q hq => hp q (by simp [hq]))
    refine ⟨w', pkt ++ sent, ?_, by rw [g2, e2, List.append_assoc]⟩
    simp only [Writer.writeMany, e1, g1, List.map_cons]

/-- C99: without overflow checks a party of two honest ones can write any number of payloads through a reliable transport with the
blocking or the asynchronous API, and its peer, of whatever kind, is given exactly these. -/
theorem C99_any_length (hP : Lawful P) (hprof : prof.overflowChecks = false) {magic : Bytes} {I R : Peer} (H : Honest P prof magic I R)
    (role : Role) {src tail : Source} {k : ErrorKind} {more : Bytes} {w : Sink} {ps : List Payload}
    (hs : Streams false src (flight P magic I R role.peer ++ more) tail)
    (hps : ∀ q ∈ ps, q.Usable ∧ ∀ c, q.contents = some c → c.length ≤ 4000013) :
    (w.Reliable true → EndsWith true tail k → ∃ p w' all,
      SyncProtocol.new P prof magic role (role.of I R).rng (role.of I R).garbage (role.of I R).decoys src w = .ok p ∧
      p.writer.writeMany .sync P prof ps = (w', ps.map fun _ => .ok ()) ∧ w'.writer.out = w.out ++ all ∧
      Conveys P prof magic role.peer (role.peer.of I R) all ps) ∧
    (w.Reliable false → EndsWith false tail k → ∃ p w' all,
      AsyncProtocol.new P prof magic role (role.of I R).rng (role.of I R).garbage (role.of I R).decoys src w = .ok p ∧
      p.writer.writeMany .async P prof ps = (w', ps.map fun _ => .ok ()) ∧ w'.writer.out = w.out ++ all ∧
      Conveys P prof magic role.peer (role.peer.of I R) all ps) := by
  obtain ⟨i, o, f, hat, -⟩ := honest_ofSent hP H
  constructor
  · intro hw he
    obtain ⟨w1, log, s, h1, h2, h3⟩ := f role syncApi syncAbs w src tail k more hw he hs
    have hnew : SyncProtocol.new P prof magic role (role.of I R).rng (role.of I R).garbage (role.of I R).decoys src w =
        .ok ⟨⟨i role, s⟩, ⟨o role, w1⟩⟩ := by unfold SyncProtocol.new; rw [h1]
    obtain ⟨w', sent, g1, g2⟩ := writeMany_release hP hprof .sync ps (w := ⟨o role, w1⟩) h2 (fun q hq => (hps q hq).1)
    have hout : w'.writer.out = w.out ++ (flight P magic I R role ++ sent) := by rw [g2, h3, List.append_assoc]
    obtain ⟨p, e1, e2⟩ := C59_sync hP H role hw he hs
    rw [hnew, Outcome.ok.injEq] at e1
    subst e1
    exact ⟨_, w', _, hnew, g1, hout, e2 ps w' _ g1 (by simp) (fun q hq => (hps q hq).2) _ hout⟩
  · intro hw he
    obtain ⟨w1, log, s, h1, h2, h3⟩ := f role asyncApi asyncAbs w src tail k more hw he hs
    have hnew : AsyncProtocol.new P prof magic role (role.of I R).rng (role.of I R).garbage (role.of I R).decoys src w =
        .ok ⟨⟨i role, s, .initReadingLength⟩, ⟨o role, w1⟩⟩ := by unfold AsyncProtocol.new; rw [h1]
    obtain ⟨w', sent, g1, g2⟩ := writeMany_release hP hprof .async ps (w := ⟨o role, w1⟩) h2 (fun q hq => (hps q hq).1)
    have hout : w'.writer.out = w.out ++ (flight P magic I R role ++ sent) := by rw [g2, h3, List.append_assoc]
    obtain ⟨p, e1, e2⟩ := C59_async hP H role hw he hs
    rw [hnew, Outcome.ok.injEq] at e1
    subst e1
    exact ⟨_, w', _, hnew, g1, hout, e2 ps w' _ g1 (by simp) (fun q hq => (hps q hq).2) _ hout⟩

/-! ## With overflow checks a connection ends after 2^32 - 1 packets -/

/-- C99: with overflow checks the write of packet number 2^32 - 1 panics and sends nothing, whatever the payload and the transport. -/
theorem C99_write_panics (hP : Lawful P) (hprof : prof.overflowChecks = true) (f : Flavour) {kL kP : Bytes} {n : Nat} {w : Writer}
    (hat : OutboundCipher.At P kL kP n w.cipher) (hn : 2 ^ 32 ≤ n + 1) (p : Payload) :
    (w.write f P prof p).2 = .panic ∧ (w.write f P prof p).1.writer = w.writer := by
  cases hv : p.view with
  | none =>
    have : p.contents = none ∨ p.packetType = none := by
      unfold Payload.view at hv
      cases h1 : p.packetType <;> cases h2 : p.contents <;> simp_all
    cases f <;> rcases this with h | h <;> cases h' : p.contents <;>
      simp_all [Writer.write, Writer.writeSync, Writer.writeAsync]
  | some tc =>
    obtain ⟨t, c⟩ := tc
    rw [Writer.write_eq f w hv]
    cases he : w.cipher.encryptToVec P prof c t none with
    | mk o x =>
    cases x with
    | panic => exact ⟨rfl, rfl⟩
    | err e => exact ⟨rfl, rfl⟩
    | ok pkt =>
      obtain ⟨pc, ct, tag, lc, encLen, -, g2, -, -⟩ := OutboundCipher.encryptToVec_ok_inv hP _ _ _ _ he
      have : w.cipher.lengthCipher.crypt P prof (leBytes 3 (c.length % u32Mod)) = none := by
        rw [FSStream.crypt_none]
        exact ⟨hprof, .inr (by rw [hat.1.1]; exact hn)⟩
      rw [this] at g2
      exact absurd g2 (by simp)

theorem writeMany_checked (hP : Lawful P) (hprof : prof.overflowChecks = true) (f : Flavour) {kL kP : Bytes} (ps : List Payload) :
    ∀ {n : Nat} {w w' : Writer}, OutboundCipher.At P kL kP n w.cipher → n < 2 ^ 32 →
      w.writeMany f P prof ps = (w', ps.map fun _ => .ok ()) → n + ps.length < 2 ^ 32 := by
  induction ps with
  | nil => intro n w w' _ hn _; simpa using hn
  | cons p ps ih =>
    intro n w w' hat hn h
    unfold Writer.writeMany at h
    cases h1 : w.write f P prof p with
    | mk w1 x =>
    cases h2 : w1.writeMany f P prof ps with
    | mk w2 xs =>
    simp only [h1, h2, List.map_cons, Prod.mk.injEq, List.cons.injEq] at h
    obtain ⟨-, rfl, rfl⟩ := h
    by_cases hl : 2 ^ 32 ≤ n + 1
    · have := (C99_write_panics hP hprof f hat hl p).1
      rw [h1] at this
      exact absurd this (by simp)
    · cases hv : p.view with
      | none =>
        exfalso
        have : p.contents = none ∨ p.packetType = none := by
          unfold Payload.view at hv
          cases h1 : p.packetType <;> cases h2 : p.contents <;> simp_all
        cases f <;> rcases this with h | h <;> cases h' : p.contents <;>
          simp_all [Writer.write, Writer.writeSync, Writer.writeAsync]
      | some tc =>
        obtain ⟨t, c⟩ := tc
        obtain ⟨o', hat', he⟩ := hat.encryptToVec (prof := prof) hP (by omega) c t none
        rw [Writer.write_eq f w hv, he] at h1
        have hc : w1.cipher = o' := by
          simp only at h1
          split at h1 <;> (obtain ⟨rfl, -⟩ := Prod.mk.inj h1; rfl)
        have := ih (hc ▸ hat') (by omega) h2
        simp only [List.length_cons]
        omega

/-- C99 is FALSE of the code with overflow checks: the handshake counts its decoys and the version packet, and however reliable the
transport, not all of the writes succeed once the packets are 2^32 together. -/
theorem C99_checked_bound (hP : Lawful P) (hprof : prof.overflowChecks = true) {magic : Bytes} {I R : Peer} (H : Honest P prof magic I R)
    (role : Role) {src tail : Source} {k : ErrorKind} {more : Bytes} {w : Sink} {ps : List Payload}
    (hs : Streams false src (flight P magic I R role.peer ++ more) tail)
    (hd : ((role.of I R).decoys.getD []).length + 1 < 2 ^ 32) (hlong : 2 ^ 32 ≤ ((role.of I R).decoys.getD []).length + 1 + ps.length) :
    (w.Reliable true → EndsWith true tail k → ∃ p,
      SyncProtocol.new P prof magic role (role.of I R).rng (role.of I R).garbage (role.of I R).decoys src w = .ok p ∧
      ∀ w', p.writer.writeMany .sync P prof ps ≠ (w', ps.map fun _ => .ok ())) ∧
    (w.Reliable false → EndsWith false tail k → ∃ p,
      AsyncProtocol.new P prof magic role (role.of I R).rng (role.of I R).garbage (role.of I R).decoys src w = .ok p ∧
      ∀ w', p.writer.writeMany .async P prof ps ≠ (w', ps.map fun _ => .ok ())) := by
  obtain ⟨i, o, f, hat, -⟩ := honest_ofSent hP H
  obtain ⟨kL, kP, hat⟩ := hat role
  constructor
  · intro hw he
    obtain ⟨w1, log, s, h1, h2, h3⟩ := f role syncApi syncAbs w src tail k more hw he hs
    refine ⟨⟨⟨i role, s⟩, ⟨o role, w1⟩⟩, by unfold SyncProtocol.new; rw [h1], fun w' h => ?_⟩
    have := writeMany_checked hP hprof .sync ps (w := ⟨o role, w1⟩) hat hd h
    omega
  · intro hw he
    obtain ⟨w1, log, s, h1, h2, h3⟩ := f role asyncApi asyncAbs w src tail k more hw he hs
    refine ⟨⟨⟨i role, s, .initReadingLength⟩, ⟨o role, w1⟩⟩, by unfold AsyncProtocol.new; rw [h1], fun w' h => ?_⟩
    have := writeMany_checked hP hprof .async ps (w := ⟨o role, w1⟩) hat hd h
    omega

/-- C99: with overflow checks the blocking read of packet number 2^32 - 1 panics as soon as its first three bytes have arrived, whatever
they are. -/
theorem C99_read_panics (hprof : prof.overflowChecks = true) {kL kP : Bytes} {r : SyncReader}
    (hat : r.cipher.At P kL kP (2 ^ 32 - 1)) {s : SyncSession} {bs : Bytes}
    (hr : SyncSession.reader.readExact true r.reader 3 = (s, .ok bs)) : (r.read P prof).2 = .panic := by
  unfold SyncReader.read
  rw [show NUM_LENGTH_BYTES = 3 from rfl, hr]
  simp only [InboundCipher.decryptPacketLen, C10_overflow_panics hprof kL _ hat.1 bs]

/-- C99: and so does the asynchronous one. -/
theorem C99_poll_panics (hprof : prof.overflowChecks = true) {kL kP : Bytes} {c : InboundCipher} {s s' : AsyncSession}
    (hat : c.At P kL kP (2 ^ 32 - 1)) {b b' : Bytes} {n n' : Nat} (hr : pollFill s b n = .full s' b' n') :
    (AsyncReader.poll P prof ⟨c, s, .readingLength b n⟩).2 = .ready .panic := by
  unfold AsyncReader.poll
  simp only [hr, InboundCipher.decryptPacketLen, C10_overflow_panics hprof kL _ hat.1 b']

/-- C99 with the cryptography of the RFCs, BIP-324 and secp256k1. -/
theorem C99_real (enc : Bytes → Bytes) (henc : ∀ sk, (enc sk).length = 64) (hprof : prof.overflowChecks = false) {magic : Bytes} {I R : Peer}
    (H : Honest (rfc (secpWith enc)) prof magic I R) (role : Role) {src tail : Source} {k : ErrorKind} {more : Bytes} {w : Sink}
    {ps : List Payload} (hw : w.Reliable true) (he : EndsWith true tail k)
    (hs : Streams false src (flight (rfc (secpWith enc)) magic I R role.peer ++ more) tail)
    (hps : ∀ q ∈ ps, q.Usable ∧ ∀ c, q.contents = some c → c.length ≤ 4000013) :
    ∃ p w' all,
      SyncProtocol.new (rfc (secpWith enc)) prof magic role (role.of I R).rng (role.of I R).garbage (role.of I R).decoys src w = .ok p ∧
      p.writer.writeMany .sync (rfc (secpWith enc)) prof ps = (w', ps.map fun _ => .ok ()) ∧ w'.writer.out = w.out ++ all ∧
      Conveys (rfc (secpWith enc)) prof magic role.peer (role.peer.of I R) all ps :=
  (C99_any_length (C53_real_lawful enc henc) hprof H role hs hps).1 hw he

/-! ## The hypotheses can be met -/

/-- The ciphers of a connection that has carried 2^32 - 1 packets. -/
example (kL kP : Bytes) : ∃ w : Writer, OutboundCipher.At toy kL kP (2 ^ 32 - 1) w.cipher :=
  ⟨⟨⟨⟨Spec.lengthKey toy kL ((2 ^ 32 - 1) / 224), 3 * ((2 ^ 32 - 1) % 224), 2 ^ 32 - 1⟩,
    ⟨Spec.packetKey toy kP ((2 ^ 32 - 1) / 224), 2 ^ 32 - 1⟩⟩, ⟨[], [], []⟩⟩, ⟨rfl, rfl, rfl⟩, rfl, rfl⟩

/-- Five thousand million messages of one byte. -/
example {src tail : Source} {k : ErrorKind} {more : Bytes} {w : Sink} (hw : w.Reliable true) (he : EndsWith true tail k) (hs) :=
  C99_real (prof := .release) ellswiftOf (fun _ => ellswiftEncode_length _) rfl (magic := [0xF9, 0xBE, 0xB4, 0xD9]) real_pair .initiator
    (src := src) (tail := tail) (k := k) (more := more) (w := w) (ps := List.replicate 5000000000 (.genuine [1])) hw he hs
    (by
      intro q hq
      rw [List.eq_of_mem_replicate hq]
      exact ⟨⟨⟨_, rfl⟩, ⟨_, rfl⟩⟩, by intro c hc; cases hc; decide⟩)

/-- The same with overflow checks, and 2^32 messages. -/
example {src tail : Source} {k : ErrorKind} {more : Bytes} {w : Sink} (hs) :=
  C99_checked_bound (prof := .debug) toy_lawful rfl (magic := [1, 2, 3, 4])
    (I := ⟨leBytes 32 77, some [42, 42], some [[1, 2, 3], []]⟩) (R := ⟨leBytes 32 99, none, none⟩) sample_pair .responder (src := src) (tail := tail) (k := k) (more := more) (w := w)
    (ps := List.replicate (2 ^ 32) (.genuine [1])) hs (by decide) (by rw [List.length_replicate]; omega)

/-- A reader with 2^32 - 1 packets behind it and three bytes before it. -/
example (kL kP : Bytes) : (SyncReader.read toy .debug ⟨⟨⟨Spec.lengthKey toy kL ((2 ^ 32 - 1) / 224), 3 * ((2 ^ 32 - 1) % 224), 2 ^ 32 - 1⟩,
    ⟨Spec.packetKey toy kP ((2 ^ 32 - 1) / 224), 2 ^ 32 - 1⟩⟩, ⟨[], true, [.data [1, 2, 3]]⟩⟩).2 = .panic :=
  C99_read_panics rfl (kL := kL) (kP := kP) ⟨⟨rfl, rfl, rfl⟩, rfl, rfl⟩ (s := ⟨[], true, []⟩) (bs := [1, 2, 3]) (show SyncSession.reader.readExact true ⟨[], true, [.data [1, 2, 3]]⟩ 3 = _ by decide +kernel)

end Bip324
