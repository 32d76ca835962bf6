import Verif.Model.QuickStart
import Verif.Props.Cut
import Verif.Props.Padding
import Verif.Props.PairTests

/-!
# C97: the example of the documentation
-/

namespace Bip324

open Concrete

variable {P : Prims} {prof : Profile}

/-- C97: the example of the documentation, against any honest peer that sends at least one packet: it succeeds, sends its handshake and
the message, and prints the length of the contents of the first packet, whether that is a decoy or not. -/
theorem C97_prints (hP : Lawful P) {magic : Bytes} {I R : Peer} (H : Honest P prof magic I R) (hg : I.garbage = none)
    (hd : I.decoys = none) :
    AllSenders P prof magic I R fun role all ms => role = .responder →
      ((role.of I R).decoys.getD []).length + ms.length + 1 < 2 ^ 32 → ∀ m more, ms = m :: more →
      ∀ {src tail : Source} {k : ErrorKind} {w : Sink}, EndsWith true tail k → w.Reliable true → Streams false src all tail →
      ∀ message, quickStart P prof magic I.rng message src w =
        .ok (w.out ++ Spec.madeUp P magic R.rng false (P.ellswift I.rng) [] [] [(0, message)], (headed m).2.length) := by
  obtain ⟨i, o, f, hat, -⟩ := honest_ofSent hP H
  refine all_senders hP f hat ?_
  intro role ms o' sent hS hz hr hn m more hms src tail k w hend hw hs message
  subst hr hms
  have hatI := sessions_at hP H f .initiator
  obtain ⟨w1, log, s, h1, h2, h3⟩ := f .initiator syncApi syncAbs w src tail k sent hw hend hs
  have hnew : SyncProtocol.new P prof magic .initiator I.rng none none src w = .ok ⟨⟨i .initiator, s⟩, ⟨o .initiator, w1⟩⟩ := by
    unfold SyncProtocol.new
    simp only [Role.of, hg, hd] at h1
    rw [h1]
  -- the packets of the peer
  obtain ⟨hst, -⟩ := sent_stream hP hS (sessions_at hP H f .responder) (by omega)
  have hdp := dirs_peer hP H .initiator
  have hmu : flight P magic I R .responder ++ sent = Spec.madeUp P magic I.rng true (P.ellswift R.rng) (R.garbage.getD [])
      (R.decoys.getD []) ((m :: more).map headed) ++ [] := by
    rw [hst, flight_transcript hP H .responder, List.append_nil, show (Role.responder.dirs P magic I R).1 =
      (Role.initiator.dirs P magic I R).2 from hdp]
    rfl
  obtain ⟨hadm, -⟩ := honest_madeUp hP H .responder
  rw [hmu] at hs
  obtain ⟨p, g1, g2, -⟩ := C94_accepted (role := .initiator) (me := I) hP (honest_ready H .initiator) hw hend
    (by simpa [Nat.add_right_comm] using hn) hadm (headed_length hz) hs
  rw [hg, hd, hnew, Outcome.ok.injEq] at g1
  subst g1
  rw [List.length_map, List.length_cons, List.map_cons, List.map_cons, SyncReader.readMany] at g2
  simp only [List.cons.injEq] at g2
  -- the packet of the example
  have hd0 : ((Role.initiator.of I R).decoys.getD []).length = 0 := by simp [Role.of, hd]
  rw [hd0] at hatI
  obtain ⟨o1, hat1, he⟩ := hatI.encryptToVec (prof := prof) hP (by omega) message .genuine none
  have hS1 : Sent P prof (o .initiator) [.genuine message] o1 (_ ++ []) := .cons (by rfl) he (.nil o1)
  obtain ⟨hst1, -⟩ := sent_stream hP hS1 hatI (by simp)
  rw [List.append_nil] at hst1
  obtain ⟨w2, hsend, hout, -⟩ := send_reliable h2 (Spec.packet P (Role.initiator.dirs P magic I R).1.1
    (Role.initiator.dirs P magic I R).1.2.1 (0 + 1) (PacketType.genuine == .decoy) ((none : Option Bytes).getD []) message)
  have hwr : (⟨⟨i .initiator, s⟩, ⟨o .initiator, w1⟩⟩ : SyncProtocol).write P prof (.genuine message) =
      (⟨⟨i .initiator, s⟩, ⟨o1, w2⟩⟩, .ok ()) := by
    unfold SyncProtocol.write Writer.writeSync
    simp only [Payload.genuine, Payload.contents, Payload.packetType]
    rw [show PacketType.fromByte PacketType.genuine.toByte = .genuine from rfl]
    simp only [he]
    rw [show syncApi.retry = true from rfl] at hsend
    rw [hsend]
  have hdp' := dirs_peer hP H .responder
  have hall : w2.out = w.out ++ Spec.madeUp P magic R.rng false (P.ellswift I.rng) [] [] [(0, message)] := by
    rw [hout, hst1, h3, flight_transcript hP H .initiator, List.append_assoc]
    rw [show (Role.initiator.dirs P magic I R).1 = (Role.responder.dirs P magic I R).2 from hdp']
    simp only [Role.of, hg, hd]
    rfl
  have hrd : ∃ r', (⟨i .initiator, s⟩ : SyncReader).read P prof = (r', .ok (delivered (headed m))) :=
    ⟨_, Prod.ext rfl g2.1⟩
  obtain ⟨r', hrd⟩ := hrd
  unfold quickStart SyncProtocol.read
  simp only [hnew, hwr, hrd]
  rw [show (delivered (headed m)).contents = some (headed m).2 from rfl]
  simp only [hall]

/-- C97: the same for the asynchronous example, against any honest peer that sends at least one packet and then goes silent, closes the
connection or loses it. -/
theorem C97_prints_async (hP : Lawful P) {magic : Bytes} {I R : Peer} (H : Honest P prof magic I R) (hg : I.garbage = none)
    (hd : I.decoys = none) :
    AllSenders P prof magic I R fun role all ms => role = .responder →
      ((role.of I R).decoys.getD []).length + ms.length + 1 < 2 ^ 32 → ∀ m more, ms = m :: more →
      ∀ {src tail : Source} {w : Sink}, (tail = [] ∨ ∃ k, tail = [.fail k]) → w.Reliable false → Streams false src all tail →
      ∀ message, quickStartAsync P prof magic I.rng message src w =
        .ok (w.out ++ Spec.madeUp P magic R.rng false (P.ellswift I.rng) [] [] [(0, message)], (headed m).2.length) := by
  obtain ⟨i, o, hm, f0, hat⟩ := honest_roles hP H
  have f : Sessions P prof magic I R i o := by
    intro role A B w src tail k more hw he hs
    obtain ⟨w', log, s, h1, h2, h3, -⟩ := f0 role A B w src tail k more hw he hs
    exact ⟨w', log, s, h1, h2, h3⟩
  refine all_senders hP f hat ?_
  intro role ms o' sent hS hz hr hn m more hms src tail w ht hw hs message
  subst hr hms
  have he : ∃ k, EndsWith false tail k := by
    rcases ht with rfl | ⟨k, rfl⟩
    · exact ⟨_, .inl ⟨rfl, rfl⟩⟩
    · exact ⟨k, .inr (.inr ⟨[], rfl, by simp⟩)⟩
  obtain ⟨k, he⟩ := he
  obtain ⟨w1, log, s, h1, h2, h3, st⟩ := f0 .initiator asyncApi asyncAbs w src tail k sent hw he hs
  have hnew : AsyncProtocol.new P prof magic .initiator I.rng none none src w =
      .ok ⟨⟨i .initiator, s, .initReadingLength⟩, ⟨o .initiator, w1⟩⟩ := by
    unfold AsyncProtocol.new
    simp only [Role.of, hg, hd] at h1
    rw [h1]
  -- the packet of the example
  have hatI := sessions_at hP H f .initiator
  have hd0 : ((Role.initiator.of I R).decoys.getD []).length = 0 := by simp [Role.of, hd]
  rw [hd0] at hatI
  obtain ⟨o1, hat1, henc⟩ := hatI.encryptToVec (prof := prof) hP (by omega) message .genuine none
  have hS1 : Sent P prof (o .initiator) [.genuine message] o1 (_ ++ []) := .cons (by rfl) henc (.nil o1)
  obtain ⟨hst1, -⟩ := sent_stream hP hS1 hatI (by simp)
  rw [List.append_nil] at hst1
  obtain ⟨w2, hwr, hout, -⟩ := C34_reliable (P := P) (prof := prof) .async ⟨o .initiator, w1⟩ (.genuine message) (t := .genuine)
    (c := message) ⟨rfl, rfl⟩ henc h2
  have hdp' := dirs_peer hP H .responder
  have hall : w2.out = w.out ++ Spec.madeUp P magic R.rng false (P.ellswift I.rng) [] [] [(0, message)] := by
    rw [hout, hst1, h3, flight_transcript hP H .initiator, List.append_assoc]
    rw [show (Role.initiator.dirs P magic I R).1 = (Role.responder.dirs P magic I R).2 from hdp']
    simp only [Role.of, hg, hd]
    rfl
  -- the packets of the peer
  have hrem := async_remaining st
  have htb : Source.bytes tail = [] := by rcases ht with rfl | ⟨k, rfl⟩ <;> rfl
  rw [htb, List.append_nil] at hrem
  obtain ⟨c, hc1, hc2, -⟩ := st
  obtain ⟨vs, hv, hb⟩ := sent_backlog hS (fun p hp c hc => by have := hz p hp c hc; omega)
  have hi : AsyncReader.Inv P prof ⟨i .initiator, s, .initReadingLength⟩ vs :=
    ⟨rfl, by omega, o .responder, hm .responder, by simpa [hrem] using hb⟩
  obtain ⟨r', ⟨t, c', vs', rfl, hrd, -⟩ | ⟨rfl, -⟩⟩ := await_quiet hP ht (s.size + 1) ⟨i .initiator, s, .initReadingLength⟩ vs
    (by show s.size < _; omega) hi ⟨c, hc1, hc2⟩
  · simp only [List.map_cons, List.cons.injEq] at hv
    have hwr' : (⟨⟨i .initiator, s, .initReadingLength⟩, ⟨o .initiator, w1⟩⟩ : AsyncProtocol).write P prof (.genuine message) =
        (⟨⟨i .initiator, s, .initReadingLength⟩, ⟨o1, w2⟩⟩, .ok ()) := by
      unfold AsyncProtocol.write
      rw [show (⟨o .initiator, w1⟩ : Writer).writeAsync P prof (.genuine message) = _ from hwr]
    unfold quickStartAsync
    simp only [hnew, hwr', hrd]
    rw [show (Payload.decrypted (t.toByte :: c')).contents = some c' from rfl, headed_of_view hv.1]
    simp only [hall]
  · simp at hv

/-- C97: a peer that uses the shaped protocol with random padding, and any generator: whatever it answers, the example prints the length
of a decoy. -/
theorem C97_padded (hP : Lawful P) {magic : Bytes} {I R : Peer} (H : Honest P prof magic I R) (hg : I.garbage = none)
    (hd : I.decoys = none) (hn : (R.decoys.getD []).length + 3 < 2 ^ 32) {w : Sink} (hw : w.Reliable true) {src tail : Source}
    {k : ErrorKind} {more : Bytes} (hend : EndsWith true tail k) (hs : Streams false src (flight P magic I R .initiator ++ more) tail) :
    ∃ p, SyncProtocol.new P prof magic .responder R.rng R.garbage R.decoys src w = .ok p ∧
      ∀ {G : Rng} {ws ws' : WriterState G} {answer : Payload}, ws.writer = p.writer → ws.shaper.config.padding = .random →
        (∀ c, answer.contents = some c → c.length ≤ 4000013) → ws.write .sync P prof answer = (ws', .ok ()) →
        ∀ all, ws'.writer.writer.out = w.out ++ all →
        ∀ {src' tail' : Source} {k' : ErrorKind} {w' : Sink}, EndsWith true tail' k' → w'.Reliable true → Streams false src' all tail' →
        ∀ message, ∃ sent n, 1 ≤ n ∧ n ≤ 1024 ∧ quickStart P prof magic I.rng message src' w' = .ok (sent, n) := by
  obtain ⟨p, h1, h2⟩ := (C97_prints hP H hg hd).sync .responder w src tail k more hw hend hs
  refine ⟨p, h1, ?_⟩
  intro G ws ws' answer hws hpad hlen hwrite all hall src' tail' k' w' hend' hw' hs' message
  obtain ⟨n, w0, n1, n2, e1, e2⟩ := C58_pair_partial hpad hwrite
  rw [hws] at e1
  have hmany : p.writer.writeMany .sync P prof [.decoy (zeros n), answer] = (ws'.writer, [.ok (), .ok ()]) := by
    simp only [Writer.writeMany, e1, e2]
  have hz : ∀ q ∈ [Payload.decoy (zeros n), answer], ∀ c, q.contents = some c → c.length ≤ 4000013 := by
    intro q hq c hc
    rcases List.mem_cons.1 hq with rfl | hq
    · rw [show (Payload.decoy (zeros n)).contents = some (zeros n) from rfl, Option.some.injEq] at hc
      rw [← hc, zeros_length]; omega
    · rw [List.mem_singleton.1 hq] at hc
      exact hlen c hc
  have := h2 _ _ _ hmany (by simp) hz all hall rfl (by simpa [Role.of] using hn) _ _ rfl hend' hw' hs' message
  rw [show (headed (.decoy (zeros n))).2 = zeros n from rfl, zeros_length] at this
  exact ⟨_, n, n1, n2, this⟩

/-- What the example prints when the peer answers `[1, 2, 3]`, without and with padding (of 9 bytes). -/
def quickStartExample (f : Flavour) (padding : PaddingStrategy) : Option Nat :=
  let own := Spec.madeUp toy [1, 2, 3, 4] (leBytes 32 77) false (toy.ellswift (leBytes 32 5)) [] [] []
  match SyncProtocol.new toy .debug [1, 2, 3, 4] .responder (leBytes 32 77) none none [.data own] ⟨[], [], []⟩ with
  | .ok p =>
    match WriterState.write (R := listRng) .sync toy .debug ⟨p.writer, ⟨⟨padding, .disabled⟩, [9]⟩, []⟩ (.genuine [1, 2, 3]) with
    | (ws, .ok ()) =>
      let program := match f with
        | .sync => quickStart
        | .async => quickStartAsync
      match program toy .debug [1, 2, 3, 4] (leBytes 32 5) [104, 105] [.data ws.writer.writer.out] ⟨[], [], []⟩ with
      | .ok (_, n) => some n
      | _ => none
    | _ => none
  | _ => none

example : quickStartExample .sync .disabled = some 3 ∧ quickStartExample .sync .random = some 9 ∧
    quickStartExample .async .disabled = some 3 ∧ quickStartExample .async .random = some 9 := by decide +kernel

/-- C97 with the cryptography of the RFCs, BIP-324 and secp256k1. -/
theorem C97_real (enc : Bytes → Bytes) (henc : ∀ sk, (enc sk).length = 64) {magic : Bytes} {I R : Peer}
    (H : Honest (rfc (secpWith enc)) prof magic I R) (hg : I.garbage = none) (hd : I.decoys = none) :
    AllSenders (rfc (secpWith enc)) prof magic I R fun role all ms => role = .responder →
      ((role.of I R).decoys.getD []).length + ms.length + 1 < 2 ^ 32 → ∀ m more, ms = m :: more →
      ∀ {src tail : Source} {k : ErrorKind} {w : Sink}, EndsWith true tail k → w.Reliable true → Streams false src all tail →
      ∀ message, quickStart (rfc (secpWith enc)) prof magic I.rng message src w =
        .ok (w.out ++ Spec.madeUp (rfc (secpWith enc)) magic R.rng false (enc I.rng) [] [] [(0, message)], (headed m).2.length) :=
  C97_prints (C53_real_lawful enc henc) H hg hd

/-- C97 for the asynchronous example, with the cryptography of the RFCs, BIP-324 and secp256k1. -/
theorem C97_real_async (enc : Bytes → Bytes) (henc : ∀ sk, (enc sk).length = 64) {magic : Bytes} {I R : Peer}
    (H : Honest (rfc (secpWith enc)) prof magic I R) (hg : I.garbage = none) (hd : I.decoys = none) :
    AllSenders (rfc (secpWith enc)) prof magic I R fun role all ms => role = .responder →
      ((role.of I R).decoys.getD []).length + ms.length + 1 < 2 ^ 32 → ∀ m more, ms = m :: more →
      ∀ {src tail : Source} {w : Sink}, (tail = [] ∨ ∃ k, tail = [.fail k]) → w.Reliable false → Streams false src all tail →
      ∀ message, quickStartAsync (rfc (secpWith enc)) prof magic I.rng message src w =
        .ok (w.out ++ Spec.madeUp (rfc (secpWith enc)) magic R.rng false (enc I.rng) [] [] [(0, message)], (headed m).2.length) :=
  C97_prints_async (C53_real_lawful enc henc) H hg hd

/-- Two honest parties with real keys, of which the initiator has neither garbage nor decoys, as in the example. -/
theorem quick_pair : Honest (rfc (secpWith ellswiftOf)) .release [0xF9, 0xBE, 0xB4, 0xD9]
    ⟨beBytes 32 12345, none, none⟩ ⟨beBytes 32 6789, none, none⟩ where
  newI := real_pair.newI
  newR := real_pair.newR
  magicI := real_pair.magicI
  magicR := real_pair.magicR
  garbageI := by simp
  garbageR := real_pair.garbageR
  decoysI := by simp
  decoysR := real_pair.decoysR
  countI := by simp
  countR := real_pair.countR
  earlyI := fun _ hj => absurd hj (Nat.not_lt_zero _)
  earlyR := real_pair.earlyR

example := C97_real (prof := .release) ellswiftOf (fun _ => ellswiftEncode_length _) (magic := [0xF9, 0xBE, 0xB4, 0xD9]) quick_pair rfl rfl

example := C97_real_async (prof := .release) ellswiftOf (fun _ => ellswiftEncode_length _) (magic := [0xF9, 0xBE, 0xB4, 0xD9])
  quick_pair rfl rfl

end Bip324
