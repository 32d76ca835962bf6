import Verif.Props.ShapedWrite
import Verif.Props.KeyExchange

/-!
# Every API talks to every API, with the real cryptography: C59

Each of the four ends that an application can open (blocking, asynchronous, shaped with threads, shaped
with a task) can be at either side of a connection.
-/

namespace Bip324

open Concrete

variable {P : Prims} {prof : Profile} {R : Rng}

/-! ## Specification -/

/-- What a party brings to the handshake. -/
structure Peer where
  rng : Bytes
  garbage : Option Bytes
  decoys : Option (List Bytes)

/-- The other side. -/
def Role.peer : Role → Role
  | .initiator => .responder
  | .responder => .initiator

/-- The party in a role. -/
def Role.of (role : Role) (I R : Peer) : Peer :=
  match role with
  | .initiator => I
  | .responder => R

/-- The bytes a party sends during the handshake (BIP-324). -/
def flight (P : Prims) (magic : Bytes) (I R : Peer) : Role → Bytes
  | .initiator => wireI P magic I.rng R.rng I.garbage I.decoys
  | .responder => wireR P magic I.rng R.rng R.garbage R.decoys

/-- Two honest parties. -/
def Honest (P : Prims) (prof : Profile) (magic : Bytes) (I R : Peer) : Prop :=
  HonestPair P prof magic I.rng R.rng I.garbage R.garbage I.decoys R.decoys

/-- The completed reads among the polls. -/
def completed : List PollResult → List (Outcome ProtocolError Payload)
  | [] => []
  | .pending :: xs => completed xs
  | .ready x :: xs => x :: completed xs

/-- The bytes `all`, received from the beginning of the connection in any segmentation, open every kind of
end for `me` in `role`, and then give exactly the messages `ms`, whatever else that end does. -/
structure Conveys (P : Prims) (prof : Profile) (magic : Bytes) (role : Role) (me : Peer) (all : Bytes)
    (ms : List Payload) : Prop where
  /-- A blocking end reads `ms`, and then how the stream ended. -/
  sync : ∀ (w : Sink) (src tail : Source) (k : ErrorKind), w.Reliable true → EndsWith true tail k →
    Streams false src all tail →
    ∃ p, SyncProtocol.new P prof magic role me.rng me.garbage me.decoys src w = .ok p ∧
      ∃ r outs, p.reader.readMany P prof ms.length = (r, outs) ∧ outs.map seen = ms.map Payload.view ∧
        (r.read P prof).2 = .err (.fromIo k)
  /-- An asynchronous end, however it polls and cancels, reads a beginning of `ms`, and with enough polls
  all of it. -/
  async : ∀ (w : Sink) (src : Source), w.Reliable false → Streams false src all [] →
    ∃ p, AsyncProtocol.new P prof magic role me.rng me.garbage me.decoys src w = .ok p ∧
      ∀ es, ∃ r outs, p.reader.run P prof es = (r, outs) ∧
        (payloads outs).map Payload.view <+: ms.map Payload.view ∧
        (p.reader.reader.size + ms.length ≤ polls es →
          (payloads outs).map Payload.view = ms.map Payload.view)
  /-- A shaped end with threads, in any schedule of its writes, its decoys and its reads. -/
  threads : ∀ (R : Rng) (config : TrafficConfig) (gen : R.State) (sh : Shaper R) (rec : List Nat) (w : Sink)
    (src tail : Source) (k : ErrorKind),
    Shaper.handshake (R := R) ⟨config, gen⟩ = (sh, me.garbage, me.decoys, rec) →
    w.Reliable true → EndsWith true tail k → Streams false src all tail →
    ∃ s, ShapedSys.new (R := R) P prof magic role me.rng config gen src w = .ok s ∧
      ∀ ls, ls.count .read = ms.length → (s.run P prof ls).reads.map seen = ms.map Payload.view
  /-- A shaped end with a task, in any schedule of its writes, its decoys and its polls. -/
  task : ∀ (R : Rng) (config : TrafficConfig) (gen : R.State) (sh : Shaper R) (rec : List Nat) (w : Sink)
    (src : Source), Shaper.handshake (R := R) ⟨config, gen⟩ = (sh, me.garbage, me.decoys, rec) →
    w.Reliable false → Streams false src all [] →
    ∃ s, AsyncShapedSys.new (R := R) P prof magic role me.rng config gen src w = .ok s ∧
      ∀ ls, (payloads (completed (s.run P prof ls).reads)).map Payload.view <+: ms.map Payload.view ∧
        (s.reader.reader.reader.size + ms.length ≤ ls.count .read →
          (payloads (completed (s.run P prof ls).reads)).map Payload.view = ms.map Payload.view)

/-- Two parties, each of which may be an end of any kind: whatever the end in `role` sends, `Q role all ms` holds
of all its bytes and of the messages it sent, in both directions. -/
structure AllSenders (P : Prims) (prof : Profile) (magic : Bytes) (I R : Peer)
    (Q : Role → Bytes → List Payload → Prop) : Prop where
  /-- A blocking sender. -/
  sync : ∀ (role : Role) (w : Sink) (src tail : Source) (k : ErrorKind) (more : Bytes), w.Reliable true →
    EndsWith true tail k → Streams false src (flight P magic I R role.peer ++ more) tail →
    ∃ p, SyncProtocol.new P prof magic role (role.of I R).rng (role.of I R).garbage (role.of I R).decoys src w
        = .ok p ∧
      ∀ ps w' rs, p.writer.writeMany .sync P prof ps = (w', rs) → (∀ x ∈ rs, x = .ok ()) →
        (∀ q ∈ ps, ∀ c, q.contents = some c → c.length ≤ 4000013) →
        ∀ all, w'.writer.out = w.out ++ all → Q role all ps
  /-- An asynchronous sender. -/
  async : ∀ (role : Role) (w : Sink) (src tail : Source) (k : ErrorKind) (more : Bytes), w.Reliable false →
    EndsWith false tail k → Streams false src (flight P magic I R role.peer ++ more) tail →
    ∃ p, AsyncProtocol.new P prof magic role (role.of I R).rng (role.of I R).garbage (role.of I R).decoys src w
        = .ok p ∧
      ∀ ps w' rs, p.writer.writeMany .async P prof ps = (w', rs) → (∀ x ∈ rs, x = .ok ()) →
        (∀ q ∈ ps, ∀ c, q.contents = some c → c.length ≤ 4000013) →
        ∀ all, w'.writer.out = w.out ++ all → Q role all ps
  /-- A shaped sender with threads, whenever the lock is free. -/
  threads : ∀ (role : Role) (G : Rng) (config : TrafficConfig) (gen : G.State) (sh : Shaper G) (rec : List Nat)
    (w : Sink) (src tail : Source) (k : ErrorKind) (more : Bytes),
    Shaper.handshake (R := G) ⟨config, gen⟩ = (sh, (role.of I R).garbage, (role.of I R).decoys, rec) →
    w.Reliable true → EndsWith true tail k → Streams false src (flight P magic I R role.peer ++ more) tail →
    ∃ s0, ShapedSys.new (R := G) P prof magic role (role.of I R).rng config gen src w = .ok s0 ∧
      ∀ ls, CallsUsable ls → ls.length + 4 < 2 ^ 32 →
        (∀ p, SysLabel.call p ∈ ls → ∀ c, p.contents = some c → c.length ≤ 4000013) →
        ∀ s, s = s0.run P prof ls → s.owner = none →
          (∀ x ∈ s.returned, x.2 = .ok ()) ∧
          ∀ all, s.ws.writer.writer.out = w.out ++ all →
            ∃ m, Shaped (s.returned.map (·.1)) m ∧
              Q role all (m.map (·.2))
  /-- A shaped sender with a task, whenever the task waits. -/
  task : ∀ (role : Role) (G : Rng) (config : TrafficConfig) (gen : G.State) (sh : Shaper G) (rec : List Nat)
    (w : Sink) (src tail : Source) (k : ErrorKind) (more : Bytes),
    Shaper.handshake (R := G) ⟨config, gen⟩ = (sh, (role.of I R).garbage, (role.of I R).decoys, rec) →
    w.Reliable false → EndsWith false tail k → Streams false src (flight P magic I R role.peer ++ more) tail →
    ∃ s0, AsyncShapedSys.new (R := G) P prof magic role (role.of I R).rng config gen src w = .ok s0 ∧
      ∀ ls, AsyncCallsUsable ls → ls.length + 4 < 2 ^ 32 →
        (∀ p, AsyncLabel.call p ∈ ls → ∀ c, p.contents = some c → c.length ≤ 4000013) →
        ∀ s, s = s0.run P prof ls → s.task ≠ .panicked ∧ ∀ a b, s.task = .select a b →
          ∃ written, s.called = written ++ s.queue.map (·.payload) ∧
            (s.returned.map (·.1)).Sublist written ∧ (∀ x ∈ s.returned, x.2 = .ok ()) ∧
            ∀ all, s.ws.writer.writer.out = w.out ++ all →
              ∃ m, Shaped written m ∧
                Q role all (m.map (·.2))

/-- Two parties, each of which may be an end of any kind: whatever one of them sends, the other one receives
it, in both directions. -/
abbrev Interoperable (P : Prims) (prof : Profile) (magic : Bytes) (I R : Peer) : Prop :=
  AllSenders P prof magic I R fun role all ms => Conveys P prof magic role.peer (role.peer.of I R) all ms

/-! ## Both roles at once -/

/-- `honest_sessions`, for a role. -/
theorem honest_roles (hP : Lawful P) {magic : Bytes} {I R : Peer} (H : Honest P prof magic I R) :
    ∃ (i : Role → InboundCipher) (o : Role → OutboundCipher), (∀ role, Matching (o role) (i role.peer)) ∧
      (∀ (role : Role) (A : Api) (B : A.Abs) (w : Sink) (src tail : Source) (k : ErrorKind) (more : Bytes),
        w.Reliable A.retry → EndsWith A.retry tail k →
        Streams false src (flight P magic I R role.peer ++ more) tail →
        ∃ w' log s, handshake A P prof magic role (role.of I R).rng (role.of I R).garbage
            (role.of I R).decoys src w = (w', log, .ok (i role, o role, s)) ∧
          w'.Reliable A.retry ∧ w'.out = w.out ++ flight P magic I R role ∧ SessStreams B s more tail) ∧
      ∀ role, ∃ kL kP, OutboundCipher.At P kL kP (((role.of I R).decoys.getD []).length + 1) (o role) := by
  obtain ⟨iI, iR, oI, oR, h1, h2, f1, f2, a1, a2⟩ := honest_sessions hP H
  refine ⟨fun | .initiator => iI | .responder => iR, fun | .initiator => oI | .responder => oR, ?_, ?_, ?_⟩
  · intro role
    cases role
    · exact h1
    · exact h2
  · intro role
    cases role
    · exact f1
    · exact f2
  · intro role
    cases role
    · exact a1
    · exact a2

/-! ## The receiving ends -/

theorem readMany_runOne (n : Nat) (r : ShapedReader) :
    (r.reader.readMany P prof n).1 =
        (runOne (fun r (_ : Unit) => ShapedReader.read P prof r) r (List.replicate n ())).1.reader ∧
      (r.reader.readMany P prof n).2 =
        (runOne (fun r (_ : Unit) => ShapedReader.read P prof r) r (List.replicate n ())).2 := by
  induction n generalizing r with
  | zero => exact ⟨rfl, rfl⟩
  | succ n ih =>
    obtain ⟨h1, h2⟩ := C42_shaped_read (P := P) (prof := prof) r
    obtain ⟨i1, i2⟩ := ih (r.read P prof).1
    rw [h1] at i1 i2
    simp only [List.replicate_succ, runOne, SyncReader.readMany]
    exact ⟨i1, by rw [i2, h2]⟩

theorem run_runOne (n : Nat) (r : AsyncShapedReader) :
    (r.reader.run P prof (List.replicate n .poll)).2 =
      completed (runOne (fun r (_ : Unit) => AsyncShapedReader.poll P prof r) r (List.replicate n ())).2 := by
  induction n generalizing r with
  | zero => rfl
  | succ n ih =>
    obtain ⟨h1, h2⟩ := C42_shaped_poll (P := P) (prof := prof) r
    have i := ih (r.poll P prof).1
    rw [h1] at i
    simp only [List.replicate_succ, runOne, AsyncReader.run]
    rw [h2]
    cases hp : r.reader.poll P prof with
    | mk rd x =>
      rw [hp] at i
      cases x with
      | pending => exact i
      | ready x => simp only [completed]; rw [← i]

theorem polls_replicate (n : Nat) : polls (List.replicate n .poll) = n := by
  induction n with
  | zero => rfl
  | succ n ih => rw [List.replicate_succ]; simp only [polls, ih]

/-- What a party sends after its handshake is understood by every kind of end of the other party. -/
theorem sent_conveys (hP : Lawful P) {magic : Bytes} {I R : Peer} {role : Role}
    {i : Role → InboundCipher} {o : Role → OutboundCipher}
    (hm : Matching (o role) (i role.peer))
    (f : ∀ (A : Api) (B : A.Abs) (w : Sink) (src tail : Source) (k : ErrorKind) (more : Bytes),
        w.Reliable A.retry → EndsWith A.retry tail k →
        Streams false src (flight P magic I R role ++ more) tail →
        ∃ w' log s, handshake A P prof magic role.peer (role.peer.of I R).rng (role.peer.of I R).garbage
            (role.peer.of I R).decoys src w = (w', log, .ok (i role.peer, o role.peer, s)) ∧
          w'.Reliable A.retry ∧ w'.out = w.out ++ flight P magic I R role.peer ∧ SessStreams B s more tail)
    {ms : List Payload} {o' : OutboundCipher} {sent : Bytes} (hS : Sent P prof (o role) ms o' sent)
    (hz : ∀ p ∈ ms, ∀ c, p.contents = some c → c.length ≤ 4000013) :
    Conveys P prof magic role.peer (role.peer.of I R) (flight P magic I R role ++ sent) ms := by
  have heof : EndsWith false [] .unexpectedEof := .inl ⟨rfl, rfl⟩
  have hsync : ∀ (w : Sink) (src tail : Source) (k : ErrorKind), w.Reliable true → EndsWith true tail k →
      Streams false src (flight P magic I R role ++ sent) tail →
      ∃ p, SyncProtocol.new P prof magic role.peer (role.peer.of I R).rng (role.peer.of I R).garbage
        (role.peer.of I R).decoys src w = .ok p ∧
      ∃ r outs, p.reader.readMany P prof ms.length = (r, outs) ∧ outs.map seen = ms.map Payload.view ∧
        (r.read P prof).2 = .err (.fromIo k) := by
    intro w src tail k hw he hs
    obtain ⟨w2, log2, s2, h2, -, -, st⟩ := f syncApi syncAbs w src tail k sent hw he hs
    obtain ⟨r', outs, g1, g2, g3, -, g5⟩ := sync_delivers hP he hS hz (r := ⟨i role.peer, s2⟩) hm
      (more := []) (by rw [List.append_nil]; exact st)
    obtain ⟨s, e⟩ := sync_read_end (P := P) (prof := prof) he g5
    exact ⟨⟨⟨i role.peer, s2⟩, ⟨o role.peer, w2⟩⟩, by simp only [SyncProtocol.new, h2], r', outs, g1, g2,
      by rw [e]⟩
  have hasync : ∀ (w : Sink) (src : Source), w.Reliable false →
      Streams false src (flight P magic I R role ++ sent) [] →
      ∃ p, AsyncProtocol.new P prof magic role.peer (role.peer.of I R).rng (role.peer.of I R).garbage
        (role.peer.of I R).decoys src w = .ok p ∧
      ∀ es, ∃ r outs, p.reader.run P prof es = (r, outs) ∧
        (payloads outs).map Payload.view <+: ms.map Payload.view ∧
        (p.reader.reader.size + ms.length ≤ polls es →
          (payloads outs).map Payload.view = ms.map Payload.view) := by
    intro w src hw hs
    obtain ⟨w2, log2, s2, h2, -, -, st⟩ := f asyncApi asyncAbs w src [] _ sent hw heof hs
    refine ⟨⟨⟨i role.peer, s2, .initReadingLength⟩, ⟨o role.peer, w2⟩⟩, by simp only [AsyncProtocol.new, h2], ?_⟩
    intro es
    have hrem := async_remaining st
    simp only [Source.bytes, List.append_nil] at hrem
    obtain ⟨xs, h1, h2⟩ := sent_backlog hS (fun p hp c hc => by have := hz p hp c hc; omega)
    have hlen : xs.length = ms.length := by simpa using (congrArg List.length h1).symm
    obtain ⟨r', outs, done, rest, g1, g2, g3, g4, g5, g6⟩ := run_inv (prof := prof) hP es
      ⟨i role.peer, s2, .initReadingLength⟩ xs ⟨rfl, by omega, o role, hm, by simpa [hrem] using h2⟩
    refine ⟨r', outs, g1, ?_, fun hb => ?_⟩
    · rw [g3, h1, g2, List.map_append]
      exact List.prefix_append _ _
    · have : rest = [] := g6 (by simp only at hb ⊢; omega)
      rw [g3, h1, g2, this, List.append_nil]
  refine ⟨hsync, hasync, ?_, ?_⟩
  · intro R config gen sh rec w src tail k hsh hw he hs
    obtain ⟨p, e1, r, outs, e2, e3, e4⟩ := hsync w src tail k hw he hs
    refine ⟨_, by simp only [ShapedSys.new, hsh, e1]; rfl, ?_⟩
    intro ls hc
    rw [C42_shaped_threads, hc]
    have h : outs = (runOne (fun r (_ : Unit) => ShapedReader.read P prof r) ⟨p.reader, []⟩
        (List.replicate ms.length ())).2 := by
      have h := (readMany_runOne (P := P) (prof := prof) ms.length ⟨p.reader, []⟩).2
      rw [e2] at h
      exact h
    rw [← e3, h]
    rfl
  · intro R config gen sh rec w src hsh hw hs
    obtain ⟨p, e1, e2⟩ := hasync w src hw hs
    refine ⟨_, by simp only [AsyncShapedSys.new, hsh, e1]; rfl, ?_⟩
    intro ls
    obtain ⟨r, outs, g1, g2, g3⟩ := e2 (List.replicate (ls.count .read) .poll)
    have h := run_runOne (P := P) (prof := prof) (ls.count .read) ⟨p.reader, []⟩
    rw [g1] at h
    rw [polls_replicate] at g3
    have hr : completed ((AsyncShapedSys.init p sh rec).run P prof ls).reads = outs := by
      rw [C42_shaped_task]
      exact h.symm
    rw [hr]
    exact ⟨g2, g3⟩

/-! ## The sending ends -/

/-- The handshakes of two honest parties, from every kind of API. -/
def Sessions (P : Prims) (prof : Profile) (magic : Bytes) (I R : Peer) (i : Role → InboundCipher)
    (o : Role → OutboundCipher) : Prop :=
  ∀ (role : Role) (A : Api) (_ : A.Abs) (w : Sink) (src tail : Source) (k : ErrorKind) (more : Bytes),
    w.Reliable A.retry → EndsWith A.retry tail k → Streams false src (flight P magic I R role.peer ++ more) tail →
    ∃ w' log s, handshake A P prof magic role (role.of I R).rng (role.of I R).garbage
        (role.of I R).decoys src w = (w', log, .ok (i role, o role, s)) ∧
      w'.Reliable A.retry ∧ w'.out = w.out ++ flight P magic I R role

/-- Whatever packets the end in `role` has sent, `Q` holds of all its bytes and of the messages. -/
def OfSent (P : Prims) (prof : Profile) (magic : Bytes) (I R : Peer) (o : Role → OutboundCipher)
    (Q : Role → Bytes → List Payload → Prop) (role : Role) : Prop :=
  ∀ ms o' sent, Sent P prof (o role) ms o' sent → (∀ p ∈ ms, ∀ c, p.contents = some c → c.length ≤ 4000013) →
    Q role (flight P magic I R role ++ sent) ms

section Senders

variable {magic : Bytes} {I R' : Peer} {i : Role → InboundCipher} {o : Role → OutboundCipher}
  {Q : Role → Bytes → List Payload → Prop}

theorem sync_senders (f : Sessions P prof magic I R' i o) (role : Role) (hQ : OfSent P prof magic I R' o Q role)
    {w : Sink} (hw : w.Reliable true) {src tail : Source} {k : ErrorKind} {more : Bytes}
    (he : EndsWith true tail k) (hs : Streams false src (flight P magic I R' role.peer ++ more) tail) :
    ∃ p, SyncProtocol.new P prof magic role (role.of I R').rng (role.of I R').garbage (role.of I R').decoys src w
        = .ok p ∧
      ∀ ps w' rs, p.writer.writeMany .sync P prof ps = (w', rs) → (∀ x ∈ rs, x = .ok ()) →
        (∀ q ∈ ps, ∀ c, q.contents = some c → c.length ≤ 4000013) →
        ∀ all, w'.writer.out = w.out ++ all → Q role all ps := by
  obtain ⟨w1, log1, s1, h1, -, ho⟩ := f role syncApi syncAbs w src tail k more hw he hs
  refine ⟨⟨⟨i role, s1⟩, ⟨o role, w1⟩⟩, by simp only [SyncProtocol.new, h1], ?_⟩
  intro ps w' rs hwr hok hz all hall
  obtain ⟨sent, hsent⟩ : w1.out <+: w'.writer.out := by
    have := writeMany_out (P := P) (prof := prof) .sync ps ⟨o role, w1⟩
    rwa [hwr] at this
  have hS := sent_of_ok .sync ps hwr hok hsent.symm
  have : all = flight P magic I R' role ++ sent := by
    rw [← hsent, ho, List.append_assoc] at hall
    exact (List.append_cancel_left hall).symm
  subst this
  exact hQ ps _ sent hS hz

theorem async_senders (f : Sessions P prof magic I R' i o) (role : Role)
    (hQ : OfSent P prof magic I R' o Q role)
    {w : Sink} (hw : w.Reliable false) {src tail : Source} {k : ErrorKind} {more : Bytes}
    (he : EndsWith false tail k) (hs : Streams false src (flight P magic I R' role.peer ++ more) tail) :
    ∃ p, AsyncProtocol.new P prof magic role (role.of I R').rng (role.of I R').garbage (role.of I R').decoys src w
        = .ok p ∧
      ∀ ps w' rs, p.writer.writeMany .async P prof ps = (w', rs) → (∀ x ∈ rs, x = .ok ()) →
        (∀ q ∈ ps, ∀ c, q.contents = some c → c.length ≤ 4000013) →
        ∀ all, w'.writer.out = w.out ++ all →
          Q role all ps := by
  obtain ⟨w1, log1, s1, h1, -, ho⟩ := f role asyncApi asyncAbs w src tail k more hw he hs
  refine ⟨⟨⟨i role, s1, .initReadingLength⟩, ⟨o role, w1⟩⟩, by simp only [AsyncProtocol.new, h1], ?_⟩
  intro ps w' rs hwr hok hz all hall
  obtain ⟨sent, hsent⟩ : w1.out <+: w'.writer.out := by
    have := writeMany_out (P := P) (prof := prof) .async ps ⟨o role, w1⟩
    rwa [hwr] at this
  have hS := sent_of_ok .async ps hwr hok hsent.symm
  have : all = flight P magic I R' role ++ sent := by
    rw [← hsent, ho, List.append_assoc] at hall
    exact (List.append_cancel_left hall).symm
  subst this
  exact hQ ps _ sent hS hz

theorem threads_senders (hP : Lawful P) (f : Sessions P prof magic I R' i o) (role : Role)
    (hat : ∃ kL kP, OutboundCipher.At P kL kP (((role.of I R').decoys.getD []).length + 1) (o role))
    (hQ : OfSent P prof magic I R' o Q role)
    {config : TrafficConfig} {gen : R.State} {sh : Shaper R} {rec : List Nat}
    (hsh : Shaper.handshake (R := R) ⟨config, gen⟩
      = (sh, (role.of I R').garbage, (role.of I R').decoys, rec))
    {w : Sink} (hw : w.Reliable true) {src tail : Source} {k : ErrorKind} {more : Bytes}
    (he : EndsWith true tail k) (hs : Streams false src (flight P magic I R' role.peer ++ more) tail) :
    ∃ s0, ShapedSys.new (R := R) P prof magic role (role.of I R').rng config gen src w = .ok s0 ∧
      ∀ ls, CallsUsable ls → ls.length + 4 < 2 ^ 32 →
        (∀ p, SysLabel.call p ∈ ls → ∀ c, p.contents = some c → c.length ≤ 4000013) →
        ∀ s, s = s0.run P prof ls → s.owner = none →
          (∀ x ∈ s.returned, x.2 = .ok ()) ∧
          ∀ all, s.ws.writer.writer.out = w.out ++ all →
            ∃ m, Shaped (s.returned.map (·.1)) m ∧
              Q role all (m.map (·.2)) := by
  obtain ⟨kL, kP, hat⟩ := hat
  obtain ⟨w1, log1, s1, h1, hrel, ho⟩ := f role syncApi syncAbs w src tail k more hw he hs
  refine ⟨_, by simp only [ShapedSys.new, hsh, SyncProtocol.new, h1]; rfl, ?_⟩
  rintro ls hl hn hz s rfl hfree
  have hd := (C37_handshake hsh).2.1
  have h0 : ShapedSys.Fresh (ShapedSys.init ⟨⟨i role, s1⟩, ⟨o role, w1⟩⟩ sh rec) :=
    ShapedSys.init_fresh ⟨⟨i role, s1⟩, ⟨o role, w1⟩⟩ sh rec
  have hnp := (C36_no_panic (prof := prof) hP h0 hat ls (by omega) hl).1
  have hcalled : ∀ p ∈ ((ShapedSys.init ⟨⟨i role, s1⟩, ⟨o role, w1⟩⟩ sh rec).run P prof ls).called,
      ∀ c, p.contents = some c → c.length ≤ 4000013 := by
    intro p hp
    rcases called_mem ls hp with h | h
    · cases h
    · exact hz p h
  have hI := (h0.inv (P := P) (prof := prof)).run ls
  generalize hs' : (ShapedSys.init ⟨⟨i role, s1⟩, ⟨o role, w1⟩⟩ sh rec).run P prof ls = s at hI hfree hnp hcalled ⊢
  obtain ⟨hc, hI⟩ := hI
  rcases hI with ⟨tr, qs, h⟩ | ⟨tr, p, pc, h, -⟩ | ⟨tr, pc, h, -⟩
  · obtain ⟨-, -, -, hser, hret, hpo, hq, -⟩ := h
    have hok : ∀ x ∈ tr, x.2 = .ok () := by
      intro x hx
      rcases hser.reliable hrel x hx with h | h
      · exact h
      · have : s.poisoned = true := hpo.2 ⟨x, hx, h⟩
        rw [hnp] at this; cases this
    rw [hq hnp, List.map_nil, List.append_nil] at hret
    refine ⟨?_, ?_⟩
    · intro x hx
      rw [hret] at hx
      exact hok _ (mem_writesOf hx)
    intro all hall
    obtain ⟨m, bytes, g1, g2, g3, g4⟩ := hser.sent hok
    have : all = flight P magic I R' role ++ bytes := by
      rw [g2] at hall
      simp only [ShapedSys.init] at hall
      rw [ho, List.append_assoc] at hall
      exact (List.append_cancel_left hall).symm
    subst this
    have hown : ownOf m = s.returned.map (·.1) := by rw [g3, hret]
    refine ⟨m, ⟨hown, g4⟩, ?_⟩
    refine hQ _ _ bytes g1 (marked_sizes (by omega) hown g4 ?_)
    · intro p hp
      exact hcalled p (by rw [hc]; exact List.mem_append_left _ hp)
  · rw [hfree] at h; cases h
  · rw [hfree] at h; cases h

theorem task_senders (hP : Lawful P) (f : Sessions P prof magic I R' i o) (role : Role)
    (hat : ∃ kL kP, OutboundCipher.At P kL kP (((role.of I R').decoys.getD []).length + 1) (o role))
    (hQ : OfSent P prof magic I R' o Q role)
    {config : TrafficConfig} {gen : R.State} {sh : Shaper R} {rec : List Nat}
    (hsh : Shaper.handshake (R := R) ⟨config, gen⟩
      = (sh, (role.of I R').garbage, (role.of I R').decoys, rec))
    {w : Sink} (hw : w.Reliable false) {src tail : Source} {k : ErrorKind} {more : Bytes}
    (he : EndsWith false tail k) (hs : Streams false src (flight P magic I R' role.peer ++ more) tail) :
    ∃ s0, AsyncShapedSys.new (R := R) P prof magic role (role.of I R').rng config gen src w = .ok s0 ∧
      ∀ ls, AsyncCallsUsable ls → ls.length + 4 < 2 ^ 32 →
        (∀ p, AsyncLabel.call p ∈ ls → ∀ c, p.contents = some c → c.length ≤ 4000013) →
        ∀ s, s = s0.run P prof ls → s.task ≠ .panicked ∧ ∀ a b, s.task = .select a b →
          ∃ written, s.called = written ++ s.queue.map (·.payload) ∧
            (s.returned.map (·.1)).Sublist written ∧ (∀ x ∈ s.returned, x.2 = .ok ()) ∧
            ∀ all, s.ws.writer.writer.out = w.out ++ all →
              ∃ m, Shaped written m ∧
                Q role all (m.map (·.2)) := by
  obtain ⟨kL, kP, hat⟩ := hat
  obtain ⟨w1, log1, s1, h1, hrel, ho⟩ := f role asyncApi asyncAbs w src tail k more hw he hs
  refine ⟨_, by simp only [AsyncShapedSys.new, hsh, AsyncProtocol.new, h1]; rfl, ?_⟩
  rintro ls hl hn hz s rfl
  have hd := (C37_handshake hsh).2.1
  have h0 : AsyncShapedSys.Fresh (AsyncShapedSys.init ⟨⟨i role, s1, .initReadingLength⟩, ⟨o role, w1⟩⟩ sh rec) :=
    AsyncShapedSys.init_fresh ⟨⟨i role, s1, .initReadingLength⟩, ⟨o role, w1⟩⟩ sh rec
  refine ⟨C36_task_no_panic (prof := prof) hP h0 hat ls (by omega) hl, ?_⟩
  intro a b hwait
  have hcalled : ∀ p ∈ ((AsyncShapedSys.init ⟨⟨i role, s1, .initReadingLength⟩, ⟨o role, w1⟩⟩ sh rec).run P prof
      ls).called, ∀ c, p.contents = some c → c.length ≤ 4000013 := by
    intro p hp
    rcases async_called_mem ls hp with h | h
    · cases h
    · exact hz p h
  have hI := (h0.inv (P := P) (prof := prof)).run ls
  generalize hs' : (AsyncShapedSys.init ⟨⟨i role, s1, .initReadingLength⟩, ⟨o role, w1⟩⟩ sh rec).run P prof ls = s
    at hI hwait hcalled ⊢
  obtain ⟨tr, hnp, hans, ⟨ret, gone, e1, e2, e3⟩, hI⟩ := hI
  rcases hI with ⟨off, rest, h1, h2, h3, h4⟩ | ⟨_, _, _, h1, -⟩ | ⟨_, _, h1, -⟩ | ⟨_, _, h1, -⟩
  · have hok : ∀ x ∈ tr, x.2 = .ok () := by
      intro x hx
      rcases h2.reliable hrel x hx with h | h
      · exact h
      · exact absurd h (hnp x hx)
    have hg : gone = [] := by
      by_cases hg : gone = []
      · exact hg
      · have := e2 hg; rw [hwait] at this; cases this
    subst hg
    rw [List.map_nil, List.append_nil] at e1
    have hsub : ret.Sublist (writesOf tr) := by
      rcases e3 with ⟨-, e⟩ | ⟨p, c, -, -, -, e⟩
      · exact e
      · exact e.trans (List.take_sublist _ _)
    have hcalls : s.called = writtenBy tr ++ s.queue.map (·.payload) := by
      rw [h3, h4]
      have : ∀ (n : Nat) (l : List Payload), (cmdsOf n l).map (·.payload) = l := by
        intro n l
        induction l generalizing n with
        | nil => rfl
        | cons p l ih =>
          show p :: (cmdsOf (n + 1) l).map (·.payload) = _
          rw [ih]
      rw [this]
    refine ⟨writtenBy tr, hcalls, ?_, ?_, ?_⟩
    · rw [e1]; exact hsub.map _
    · intro x hx
      rw [e1] at hx
      exact hok _ (mem_writesOf (hsub.subset hx))
    intro all hall
    obtain ⟨m, bytes, g1, g2, g3, g4⟩ := h2.sent hok
    have : all = flight P magic I R' role ++ bytes := by
      rw [g2] at hall
      simp only [AsyncShapedSys.init] at hall
      rw [ho, List.append_assoc] at hall
      exact (List.append_cancel_left hall).symm
    subst this
    refine ⟨m, ⟨g3, g4⟩, ?_⟩
    refine hQ _ _ bytes g1 (marked_sizes (by omega) g3 g4 ?_)
    · intro p hp
      exact hcalled p (by rw [hcalls]; exact List.mem_append_left _ hp)
  · rw [hwait] at h1; cases h1
  · rw [hwait] at h1; cases h1
  · rw [hwait] at h1; cases h1

/-- All four kinds of sender. -/
theorem all_senders (hP : Lawful P) (f : Sessions P prof magic I R' i o)
    (hat : ∀ role, ∃ kL kP, OutboundCipher.At P kL kP (((role.of I R').decoys.getD []).length + 1) (o role))
    (hQ : ∀ role, OfSent P prof magic I R' o Q role) : AllSenders P prof magic I R' Q where
  sync role _ _ _ _ _ hw he hs := sync_senders f role (hQ role) hw he hs
  async role _ _ _ _ _ hw he hs := async_senders f role (hQ role) hw he hs
  threads role _ _ _ _ _ _ _ _ _ _ hsh hw he hs := threads_senders hP f role (hat role) (hQ role) hsh hw he hs
  task role _ _ _ _ _ _ _ _ _ _ hsh hw he hs := task_senders hP f role (hat role) (hQ role) hsh hw he hs

end Senders

/-- The sessions of two honest parties, and what they send. -/
theorem honest_ofSent (hP : Lawful P) {magic : Bytes} {I R : Peer} (H : Honest P prof magic I R) :
    ∃ (i : Role → InboundCipher) (o : Role → OutboundCipher), Sessions P prof magic I R i o ∧
      (∀ role, ∃ kL kP, OutboundCipher.At P kL kP (((role.of I R).decoys.getD []).length + 1) (o role)) ∧
      ∀ role, OfSent P prof magic I R o
        (fun role all ms => Conveys P prof magic role.peer (role.peer.of I R) all ms) role := by
  obtain ⟨i, o, hm, f, hat⟩ := honest_roles hP H
  refine ⟨i, o, ?_, hat, ?_⟩
  · intro role A B w src tail k more hw he hs
    obtain ⟨w', log, s, h1, h2, h3, -⟩ := f role A B w src tail k more hw he hs
    exact ⟨w', log, s, h1, h2, h3⟩
  · intro role ms o' sent hS hz
    refine sent_conveys hP (hm role) ?_ hS hz
    have := f role.peer
    cases role
    · exact this
    · exact this

/-- C59, a blocking sender, in either role. -/
theorem C59_sync (hP : Lawful P) {magic : Bytes} {I R : Peer} (H : Honest P prof magic I R) (role : Role)
    {w : Sink} (hw : w.Reliable true) {src tail : Source} {k : ErrorKind} {more : Bytes}
    (he : EndsWith true tail k) (hs : Streams false src (flight P magic I R role.peer ++ more) tail) :
    ∃ p, SyncProtocol.new P prof magic role (role.of I R).rng (role.of I R).garbage (role.of I R).decoys src w
        = .ok p ∧
      ∀ ps w' rs, p.writer.writeMany .sync P prof ps = (w', rs) → (∀ x ∈ rs, x = .ok ()) →
        (∀ q ∈ ps, ∀ c, q.contents = some c → c.length ≤ 4000013) →
        ∀ all, w'.writer.out = w.out ++ all →
          Conveys P prof magic role.peer (role.peer.of I R) all ps := by
  obtain ⟨i, o, f, hat, hQ⟩ := honest_ofSent hP H
  exact sync_senders f role (hQ role) hw he hs

/-- C59, an asynchronous sender, in either role. -/
theorem C59_async (hP : Lawful P) {magic : Bytes} {I R : Peer} (H : Honest P prof magic I R) (role : Role)
    {w : Sink} (hw : w.Reliable false) {src tail : Source} {k : ErrorKind} {more : Bytes}
    (he : EndsWith false tail k) (hs : Streams false src (flight P magic I R role.peer ++ more) tail) :
    ∃ p, AsyncProtocol.new P prof magic role (role.of I R).rng (role.of I R).garbage (role.of I R).decoys src w
        = .ok p ∧
      ∀ ps w' rs, p.writer.writeMany .async P prof ps = (w', rs) → (∀ x ∈ rs, x = .ok ()) →
        (∀ q ∈ ps, ∀ c, q.contents = some c → c.length ≤ 4000013) →
        ∀ all, w'.writer.out = w.out ++ all →
          Conveys P prof magic role.peer (role.peer.of I R) all ps := by
  obtain ⟨i, o, f, hat, hQ⟩ := honest_ofSent hP H
  exact async_senders f role (hQ role) hw he hs

/-- C59, a shaped sender with threads, in either role: whenever the lock is free, the peer, of whatever kind,
is given exactly the payloads of the writes that returned, with decoys of the shaper in between. -/
theorem C59_threads (hP : Lawful P) {magic : Bytes} {I R' : Peer} (H : Honest P prof magic I R') (role : Role)
    {config : TrafficConfig} {gen : R.State} {sh : Shaper R} {rec : List Nat}
    (hsh : Shaper.handshake (R := R) ⟨config, gen⟩
      = (sh, (role.of I R').garbage, (role.of I R').decoys, rec))
    {w : Sink} (hw : w.Reliable true) {src tail : Source} {k : ErrorKind} {more : Bytes}
    (he : EndsWith true tail k) (hs : Streams false src (flight P magic I R' role.peer ++ more) tail) :
    ∃ s0, ShapedSys.new (R := R) P prof magic role (role.of I R').rng config gen src w = .ok s0 ∧
      ∀ ls, CallsUsable ls → ls.length + 4 < 2 ^ 32 →
        (∀ p, SysLabel.call p ∈ ls → ∀ c, p.contents = some c → c.length ≤ 4000013) →
        ∀ s, s = s0.run P prof ls → s.owner = none →
          (∀ x ∈ s.returned, x.2 = .ok ()) ∧
          ∀ all, s.ws.writer.writer.out = w.out ++ all →
            ∃ m, Shaped (s.returned.map (·.1)) m ∧
              Conveys P prof magic role.peer (role.peer.of I R') all (m.map (·.2)) := by
  obtain ⟨i, o, f, hat, hQ⟩ := honest_ofSent hP H
  exact threads_senders hP f role (hat role) (hQ role) hsh hw he hs

/-- C59, a shaped sender with a task, in either role: whenever the task waits for something to do, the peer,
of whatever kind, is given exactly the payloads of a beginning of the calls, the rest being queued, with decoys
of the shaper in between. -/
theorem C59_task (hP : Lawful P) {magic : Bytes} {I R' : Peer} (H : Honest P prof magic I R') (role : Role)
    {config : TrafficConfig} {gen : R.State} {sh : Shaper R} {rec : List Nat}
    (hsh : Shaper.handshake (R := R) ⟨config, gen⟩
      = (sh, (role.of I R').garbage, (role.of I R').decoys, rec))
    {w : Sink} (hw : w.Reliable false) {src tail : Source} {k : ErrorKind} {more : Bytes}
    (he : EndsWith false tail k) (hs : Streams false src (flight P magic I R' role.peer ++ more) tail) :
    ∃ s0, AsyncShapedSys.new (R := R) P prof magic role (role.of I R').rng config gen src w = .ok s0 ∧
      ∀ ls, AsyncCallsUsable ls → ls.length + 4 < 2 ^ 32 →
        (∀ p, AsyncLabel.call p ∈ ls → ∀ c, p.contents = some c → c.length ≤ 4000013) →
        ∀ s, s = s0.run P prof ls → s.task ≠ .panicked ∧ ∀ a b, s.task = .select a b →
          ∃ written, s.called = written ++ s.queue.map (·.payload) ∧
            (s.returned.map (·.1)).Sublist written ∧ (∀ x ∈ s.returned, x.2 = .ok ()) ∧
            ∀ all, s.ws.writer.writer.out = w.out ++ all →
              ∃ m, Shaped written m ∧
                Conveys P prof magic role.peer (role.peer.of I R') all (m.map (·.2)) := by
  obtain ⟨i, o, f, hat, hQ⟩ := honest_ofSent hP H
  exact task_senders hP f role (hat role) (hQ role) hsh hw he hs

/-- C59: all four kinds of sender with all four kinds of receiver, in both directions. -/
theorem C59_interoperable (hP : Lawful P) {magic : Bytes} {I R : Peer} (H : Honest P prof magic I R) :
    Interoperable P prof magic I R where
  sync role _ _ _ _ _ hw he hs := C59_sync hP H role hw he hs
  async role _ _ _ _ _ hw he hs := C59_async hP H role hw he hs
  threads role _ _ _ _ _ _ _ _ _ _ hsh hw he hs := C59_threads hP H role hsh hw he hs
  task role _ _ _ _ _ _ _ _ _ _ hsh hw he hs := C59_task hP H role hsh hw he hs

/-- C59 with the cryptography of the RFCs, BIP-324 and secp256k1, where nothing about it is assumed. -/
theorem C59_real (enc : Bytes → Bytes) (henc : ∀ sk, (enc sk).length = 64) {magic : Bytes} {I R : Peer}
    (H : Honest (rfc (secpWith enc)) prof magic I R) : Interoperable (rfc (secpWith enc)) prof magic I R :=
  C59_interoperable (C53_real_lawful enc henc) H

/-! ## A case -/

/-- Two honest parties with real keys, on the Bitcoin network. -/
theorem real_pair : Honest (rfc (secpWith ellswiftOf)) .release [0xF9, 0xBE, 0xB4, 0xD9]
    ⟨beBytes 32 12345, some [42, 42], some [[7, 7, 7]]⟩ ⟨beBytes 32 6789, none, none⟩ where
  newI := by decide +kernel
  newR := by decide +kernel
  magicI := by decide +kernel
  magicR := by decide +kernel
  garbageI := by decide +kernel
  garbageR := by decide +kernel
  decoysI := by decide +kernel
  decoysR := by decide +kernel
  countI := by decide +kernel
  countR := by decide +kernel
  earlyI := by
    generalize ht : List.take 16 _ = t
    refine noEarly_of_head (b := t.headD 0) ?_ ?_
    · rw [← ht]; decide +kernel
    · rw [← ht]; decide +kernel
  earlyR := by intro j hj; simp at hj

example : Interoperable (rfc (secpWith ellswiftOf)) .release [0xF9, 0xBE, 0xB4, 0xD9]
    ⟨beBytes 32 12345, some [42, 42], some [[7, 7, 7]]⟩ ⟨beBytes 32 6789, none, none⟩ :=
  C59_real _ (fun _ => ellswiftEncode_length _) real_pair

/-- The garbage and the decoys of these parties are such as shapers choose them. -/
example : (∃ sh, Shaper.handshake (R := listRng) ⟨⟨.random, .random⟩, [2, 42, 1, 3, 7]⟩
      = (sh, some [42, 42], some [[7, 7, 7]], [2, 3])) ∧
    ∃ sh, Shaper.handshake (R := listRng) ⟨⟨.disabled, .disabled⟩, []⟩ = (sh, none, none, []) :=
  ⟨⟨_, rfl⟩, ⟨_, rfl⟩⟩

/-- A shaped sender and a blocking receiver, from the first byte. -/
example :
    let I : Peer := ⟨leBytes 32 77, some [42, 42], some [[7, 7, 7]]⟩
    let R : Peer := ⟨leBytes 32 99, none, none⟩
    let f := flight toy [1, 2, 3, 4] I R
    (match ShapedSys.new (R := listRng) toy .debug [1, 2, 3, 4] .initiator (leBytes 32 77) ⟨.random, .random⟩
        [2, 42, 1, 3, 7, 4] [.data (f .responder)] ⟨[], [], []⟩ with
      | .ok s =>
        let s := s.run toy .debug (.call (.genuine [1, 2]) :: List.replicate 30 .app)
        match SyncProtocol.new toy .debug [1, 2, 3, 4] .responder (leBytes 32 99) none none
            [.data s.ws.writer.writer.out] ⟨[], [], []⟩ with
        | .ok p => s.owner == none && s.returned.length == 1 &&
            (p.reader.readMany toy .debug 2).2.map seen == [some (.decoy, zeros 4), some (.genuine, [1, 2])]
        | _ => false
      | _ => false) = true := by
  decide +kernel

end Bip324
