import Verif.Lemmas.AnyTransport
import Verif.Props.Reference
import Verif.Props.Transcript

/-!
# Any transport: C66

The scripts of `Verif/Model/Transport.lean` lose nothing: every execution of the I/O code against a transport that is
any state machine, whose answers may depend on everything that happened before, is the execution against the scripts of
the answers that it gave.  So every theorem about scripts is one about all transports and all peers, in particular about
peers that choose what they send after seeing what they receive.  For the main ones this is spelt out.
-/

namespace Bip324

variable {P : Prims} {prof : Profile} {σ : Type} {fuel : Nat}

/-! ## Specification -/

/-- What an application does with a session. -/
inductive Call where
  /-- `read` (one poll of it, in the asynchronous API). -/
  | read
  | write (p : Payload)
deriving Repr, DecidableEq

/-- What it gets. -/
inductive Answer where
  | pending
  | read (x : Outcome ProtocolError Payload)
  | wrote (x : Outcome ProtocolError Unit)
deriving Repr, DecidableEq

/-- How often `read` is called. -/
def Call.reads : List Call → Nat
  | [] => 0
  | .read :: cs => Call.reads cs + 1
  | .write _ :: cs => Call.reads cs

/-- What is written. -/
def Call.writes : List Call → List Payload
  | [] => []
  | .read :: cs => Call.writes cs
  | .write p :: cs => p :: Call.writes cs

/-- The results of the reads that ended. -/
def Answer.reads : List Answer → List (Outcome ProtocolError Payload)
  | [] => []
  | .read x :: xs => x :: Answer.reads xs
  | _ :: xs => Answer.reads xs

/-- The results of the writes. -/
def Answer.writes : List Answer → List (Outcome ProtocolError Unit)
  | [] => []
  | .wrote x :: xs => x :: Answer.writes xs
  | _ :: xs => Answer.writes xs

/-- Calls on a session over scripts. -/
def SyncProtocol.calls (P : Prims) (prof : Profile) : SyncProtocol → List Call → SyncProtocol × List Answer
  | p, [] => (p, [])
  | p, .read :: cs =>
    match p.read P prof with
    | (p, x) => match SyncProtocol.calls P prof p cs with | (p, xs) => (p, .read x :: xs)
  | p, .write q :: cs =>
    match p.write P prof q with
    | (p, x) => match SyncProtocol.calls P prof p cs with | (p, xs) => (p, .wrote x :: xs)

/-- What a poll gives the application. -/
def PollResult.answer : PollResult → Answer
  | .pending => .pending
  | .ready x => .read x

/-- The same, asynchronous API. -/
def AsyncProtocol.calls (P : Prims) (prof : Profile) : AsyncProtocol → List Call → AsyncProtocol × List Answer
  | p, [] => (p, [])
  | p, .read :: cs =>
    match p.pollRead P prof with
    | (p, x) => match AsyncProtocol.calls P prof p cs with | (p, xs) => (p, x.answer :: xs)
  | p, .write q :: cs =>
    match p.write P prof q with
    | (p, x) => match AsyncProtocol.calls P prof p cs with | (p, xs) => (p, .wrote x :: xs)

/-- Calls on a session over any transport. -/
def SyncN.calls (fuel : Nat) (N : Conn σ) (P : Prims) (prof : Profile) : SyncN σ → List Call → Option (SyncN σ × List Answer)
  | p, [] => some (p, [])
  | p, .read :: cs =>
    match SyncN.read fuel N P prof p with
    | none => none
    | some (p, x) => match SyncN.calls fuel N P prof p cs with | none => none | some (p, xs) => some (p, .read x :: xs)
  | p, .write q :: cs =>
    match SyncN.write fuel N P prof p q with
    | none => none
    | some (p, x) => match SyncN.calls fuel N P prof p cs with | none => none | some (p, xs) => some (p, .wrote x :: xs)

/-- The same, asynchronous API. -/
def AsyncN.calls (fuel : Nat) (N : PollConn σ) (P : Prims) (prof : Profile) :
    AsyncN σ → List Call → Option (AsyncN σ × List Answer)
  | p, [] => some (p, [])
  | p, .read :: cs =>
    match AsyncN.pollRead fuel N P prof p with
    | none => none
    | some (p, x) => match AsyncN.calls fuel N P prof p cs with | none => none | some (p, xs) => some (p, x.answer :: xs)
  | p, .write q :: cs =>
    match AsyncN.write fuel N P prof p q with
    | none => none
    | some (p, x) => match AsyncN.calls fuel N P prof p cs with | none => none | some (p, xs) => some (p, .wrote x :: xs)

/-! ## The handshake -/

/-- C66: what the handshake does over a transport is what it does over the scripts of the transport's answers: the script
for reading is the very list of its answers, and the bytes taken are the bytes written.  Both APIs, every outcome. -/
theorem C66_handshake_sync {N : Conn σ} (hN : N.Keeps) {magic rng : Bytes} {role : Role} {g : Option Bytes}
    {d : Option (List Bytes)} {r r' : ConnRun σ} {x : Outcome ProtocolError (InboundCipher × OutboundCipher × Bytes × Bool)}
    (he : handshakeN fuel syncN N P prof magic role rng g d r = some (r', x)) :
    ∃ (ρ : Source) (ω : List WEv) (φ : List (Option ErrorKind)) (taken : Bytes) (log : HsLog),
      handshake syncApi P prof magic role rng g d ρ ⟨ω, φ, []⟩ =
        (⟨[], [], taken⟩, log, withSession (fun s => ⟨s.1, s.2, []⟩) x) ∧
      r'.answers = r.answers ++ ρ ∧ r'.sent = r.sent ++ taken := by
  obtain ⟨ρ, ω, φ, t, log, h, h1, h2⟩ := handshakeN_script syncMatch hN magic role rng g d r r' x he
  have h := h [] [] [] []
  simp only [List.append_nil, List.nil_append] at h
  exact ⟨ρ, ω, φ, t, log, h, h1, h2⟩

theorem C66_handshake_async {N : Conn σ} (hN : N.Keeps) {magic rng : Bytes} {role : Role} {g : Option Bytes}
    {d : Option (List Bytes)} {r r' : ConnRun σ} {x : Outcome ProtocolError (InboundCipher × OutboundCipher × Bytes × Nat)}
    (he : handshakeN fuel asyncN N P prof magic role rng g d r = some (r', x)) :
    ∃ (ρ : Source) (ω : List WEv) (φ : List (Option ErrorKind)) (taken : Bytes) (log : HsLog),
      handshake asyncApi P prof magic role rng g d ρ ⟨ω, φ, []⟩ =
        (⟨[], [], taken⟩, log, withSession (fun s => ⟨s.1, s.2, []⟩) x) ∧
      r'.answers = r.answers ++ ρ ∧ r'.sent = r.sent ++ taken := by
  obtain ⟨ρ, ω, φ, t, log, h, h1, h2⟩ := handshakeN_script asyncMatch hN magic role rng g d r r' x he
  have h := h [] [] [] []
  simp only [List.append_nil, List.nil_append] at h
  exact ⟨ρ, ω, φ, t, log, h, h1, h2⟩

/-! ## Sessions -/

/-- The session over scripts. -/
def SyncN.on (p : SyncN σ) (src : Source) (w : Sink) : SyncProtocol := ⟨⟨p.inbound, ⟨p.sess.1, p.sess.2, src⟩⟩, ⟨p.outbound, w⟩⟩

/-- The session over scripts. -/
def AsyncN.on (p : AsyncN σ) (src : Source) (w : Sink) : AsyncProtocol :=
  ⟨⟨p.inbound, ⟨p.sess.1, p.sess.2, src⟩, p.state⟩, ⟨p.outbound, w⟩⟩

theorem syncCalls_script {N : Conn σ} (hN : N.Keeps) (cs : List Call) : ∀ {p p' : SyncN σ} {xs : List Answer},
    p.calls fuel N P prof cs = some (p', xs) →
    ∃ (ρ : Source) (ω : List WEv) (φ : List (Option ErrorKind)) (taken : Bytes),
      (∀ tρ tω tφ out, (p.on (ρ ++ tρ) ⟨ω ++ tω, φ ++ tφ, out⟩).calls P prof cs =
        (p'.on tρ ⟨tω, tφ, out ++ taken⟩, xs)) ∧
      p'.run.answers = p.run.answers ++ ρ ∧ p'.run.sent = p.run.sent ++ taken := by
  induction cs with
  | nil =>
    intro p p' xs h
    simp only [SyncN.calls, Option.some.injEq, Prod.mk.injEq] at h
    obtain ⟨rfl, rfl⟩ := h
    exact ⟨[], [], [], [], fun _ _ _ _ => by simp [SyncProtocol.calls], by simp [Source.bytes], by simp⟩
  | cons c cs ih =>
    intro p p' xs h
    cases c with
    | read =>
      simp only [SyncN.calls, SyncN.read] at h
      cases hr : syncReadN fuel N P prof p.inbound (p.sess, p.run) with
      | none => rw [hr] at h; simp at h
      | some z =>
      obtain ⟨⟨c1, s1, r1⟩, x⟩ := z
      rw [hr] at h
      simp only at h
      cases hc : SyncN.calls fuel N P prof ⟨c1, s1, p.outbound, r1⟩ cs with
      | none => rw [hc] at h; simp at h
      | some z =>
      obtain ⟨p2, xs2⟩ := z
      rw [hc] at h
      simp only [Option.some.injEq, Prod.mk.injEq] at h
      obtain ⟨rfl, rfl⟩ := h
      obtain ⟨ρ1, e1, g1, t1⟩ := syncReadN_script hN _ _ _ _ _ hr
      obtain ⟨ρ2, ω, φ, t, e2, g2, t2⟩ := ih hc
      refine ⟨ρ1 ++ ρ2, ω, φ, t, fun tρ tω tφ out => ?_, ?_, ?_⟩
      · have hp : (p.on (ρ1 ++ ρ2 ++ tρ) ⟨ω ++ tω, φ ++ tφ, out⟩).read P prof =
            (SyncN.on ⟨c1, s1, p.outbound, r1⟩ (ρ2 ++ tρ) ⟨ω ++ tω, φ ++ tφ, out⟩, x) := by
          simp only [SyncProtocol.read, SyncN.on, List.append_assoc, e1]
        simp only [SyncProtocol.calls, hp, e2]
      · have g1 : r1.answers = p.run.answers ++ ρ1 := g1
        have g2 : p2.run.answers = r1.answers ++ ρ2 := g2
        rw [g2, g1]; simp
      · have t1 : r1.sent = p.run.sent := t1
        have t2 : p2.run.sent = r1.sent ++ t := t2
        rw [t2, t1]
    | write q =>
      simp only [SyncN.calls, SyncN.write] at h
      cases hr : writeN fuel .sync N P prof p.outbound p.run q with
      | none => rw [hr] at h; simp at h
      | some z =>
      obtain ⟨⟨c1, r1⟩, x⟩ := z
      rw [hr] at h
      simp only at h
      cases hc : SyncN.calls fuel N P prof ⟨p.inbound, p.sess, c1, r1⟩ cs with
      | none => rw [hc] at h; simp at h
      | some z =>
      obtain ⟨p2, xs2⟩ := z
      rw [hc] at h
      simp only [Option.some.injEq, Prod.mk.injEq] at h
      obtain ⟨rfl, rfl⟩ := h
      obtain ⟨ω1, φ1, t1, e1, s1, g1⟩ := writeN_script hr
      obtain ⟨ρ2, ω, φ, t, e2, g2, t2⟩ := ih hc
      refine ⟨ρ2, ω1 ++ ω, φ1 ++ φ, t1 ++ t, fun tρ tω tφ out => ?_, ?_, ?_⟩
      · have e1 : ∀ tω tφ out, Writer.writeSync P prof ⟨p.outbound, ⟨ω1 ++ tω, φ1 ++ tφ, out⟩⟩ q =
          (⟨c1, ⟨tω, tφ, out ++ t1⟩⟩, x) := e1
        have hp : (p.on (ρ2 ++ tρ) ⟨ω1 ++ ω ++ tω, φ1 ++ φ ++ tφ, out⟩).write P prof q =
            (SyncN.on ⟨p.inbound, p.sess, c1, r1⟩ (ρ2 ++ tρ) ⟨ω ++ tω, φ ++ tφ, out ++ t1⟩, x) := by
          simp only [SyncProtocol.write, SyncN.on, List.append_assoc, e1]
        simp only [SyncProtocol.calls, hp, e2]
        simp only [List.append_assoc]
      · have g2 : p2.run.answers = r1.answers ++ ρ2 := g2
        rw [g2, g1]
      · have t2 : p2.run.sent = r1.sent ++ t := t2
        rw [t2, s1]; simp

theorem asyncCalls_script {N : PollConn σ} (hN : N.Keeps) (cs : List Call) : ∀ {p p' : AsyncN σ} {xs : List Answer},
    p.calls fuel N P prof cs = some (p', xs) →
    ∃ (ρ : Source) (ω : List WEv) (φ : List (Option ErrorKind)) (taken : Bytes),
      (∀ tρ tω tφ out, (p.on (ρ ++ tρ) ⟨ω ++ tω, φ ++ tφ, out⟩).calls P prof cs =
        (p'.on tρ ⟨tω, tφ, out ++ taken⟩, xs)) ∧
      p'.run.answers = p.run.answers ++ ρ ∧ p'.run.sent = p.run.sent ++ taken := by
  induction cs with
  | nil =>
    intro p p' xs h
    simp only [AsyncN.calls, Option.some.injEq, Prod.mk.injEq] at h
    obtain ⟨rfl, rfl⟩ := h
    exact ⟨[], [], [], [], fun _ _ _ _ => by simp [AsyncProtocol.calls], by simp [Source.bytes], by simp⟩
  | cons c cs ih =>
    intro p p' xs h
    cases c with
    | read =>
      simp only [AsyncN.calls, AsyncN.pollRead] at h
      cases hr : AsyncReaderN.poll fuel N P prof ⟨p.inbound, (p.sess, p.run), p.state⟩ with
      | none => rw [hr] at h; simp at h
      | some z =>
      obtain ⟨⟨c1, ⟨s1, r1⟩, st1⟩, x⟩ := z
      rw [hr] at h
      simp only at h
      cases hc : AsyncN.calls fuel N P prof ⟨c1, s1, st1, p.outbound, r1⟩ cs with
      | none => rw [hc] at h; simp at h
      | some z =>
      obtain ⟨p2, xs2⟩ := z
      rw [hc] at h
      simp only [Option.some.injEq, Prod.mk.injEq] at h
      obtain ⟨rfl, rfl⟩ := h
      obtain ⟨ρ1, e1, g1, t1⟩ := pollN_script hN _ _ _ hr
      obtain ⟨ρ2, ω, φ, t, e2, g2, t2⟩ := ih hc
      refine ⟨ρ1 ++ ρ2, ω, φ, t, fun tρ tω tφ out => ?_, ?_, ?_⟩
      · have hp : (p.on (ρ1 ++ ρ2 ++ tρ) ⟨ω ++ tω, φ ++ tφ, out⟩).pollRead P prof =
            (AsyncN.on ⟨c1, s1, st1, p.outbound, r1⟩ (ρ2 ++ tρ) ⟨ω ++ tω, φ ++ tφ, out⟩, x) := by
          simp only [AsyncProtocol.pollRead, AsyncN.on, List.append_assoc, e1]
        simp only [AsyncProtocol.calls, hp, e2]
      · have g1 : r1.answers = p.run.answers ++ ρ1 := g1
        have g2 : p2.run.answers = r1.answers ++ ρ2 := g2
        rw [g2, g1]; simp
      · have t1 : r1.sent = p.run.sent := t1
        have t2 : p2.run.sent = r1.sent ++ t := t2
        rw [t2, t1]
    | write q =>
      simp only [AsyncN.calls, AsyncN.write] at h
      cases hr : writeN fuel .async N.toConn P prof p.outbound p.run q with
      | none => rw [hr] at h; simp at h
      | some z =>
      obtain ⟨⟨c1, r1⟩, x⟩ := z
      rw [hr] at h
      simp only at h
      cases hc : AsyncN.calls fuel N P prof ⟨p.inbound, p.sess, p.state, c1, r1⟩ cs with
      | none => rw [hc] at h; simp at h
      | some z =>
      obtain ⟨p2, xs2⟩ := z
      rw [hc] at h
      simp only [Option.some.injEq, Prod.mk.injEq] at h
      obtain ⟨rfl, rfl⟩ := h
      obtain ⟨ω1, φ1, t1, e1, s1, g1⟩ := writeN_script hr
      obtain ⟨ρ2, ω, φ, t, e2, g2, t2⟩ := ih hc
      refine ⟨ρ2, ω1 ++ ω, φ1 ++ φ, t1 ++ t, fun tρ tω tφ out => ?_, ?_, ?_⟩
      · have e1 : ∀ tω tφ out, Writer.writeAsync P prof ⟨p.outbound, ⟨ω1 ++ tω, φ1 ++ tφ, out⟩⟩ q =
          (⟨c1, ⟨tω, tφ, out ++ t1⟩⟩, x) := e1
        have hp : (p.on (ρ2 ++ tρ) ⟨ω1 ++ ω ++ tω, φ1 ++ φ ++ tφ, out⟩).write P prof q =
            (AsyncN.on ⟨p.inbound, p.sess, p.state, c1, r1⟩ (ρ2 ++ tρ) ⟨ω ++ tω, φ ++ tφ, out ++ t1⟩, x) := by
          simp only [AsyncProtocol.write, AsyncN.on, List.append_assoc, e1]
        simp only [AsyncProtocol.calls, hp, e2]
        simp only [List.append_assoc]
      · have g2 : p2.run.answers = r1.answers ++ ρ2 := g2
        rw [g2, g1]
      · have t2 : p2.run.sent = r1.sent ++ t := t2
        rw [t2, s1]; simp

theorem sync_script {N : Conn σ} (hN : N.Keeps) {magic rng : Bytes} {role : Role} {g : Option Bytes}
    {d : Option (List Bytes)} {r r1 : ConnRun σ} {p p' : SyncN σ} {cs : List Call} {xs : List Answer}
    (hnew : SyncN.new fuel N P prof magic role rng g d r = some (r1, .ok p))
    (hc : p.calls fuel N P prof cs = some (p', xs)) :
    ∃ (ρ : Source) (ω : List WEv) (φ : List (Option ErrorKind)) (out : Bytes),
      (∀ tρ tω tφ, ∃ q : SyncProtocol, SyncProtocol.new P prof magic role rng g d (ρ ++ tρ) ⟨ω ++ tω, φ ++ tφ, []⟩ = .ok q ∧
        q.calls P prof cs = (p'.on tρ ⟨tω, tφ, out⟩, xs)) ∧
      p'.run.answers = r.answers ++ ρ ∧ p'.run.sent = r.sent ++ out := by
  unfold SyncN.new at hnew
  cases hh : handshakeN fuel syncN N P prof magic role rng g d r with
  | none => rw [hh] at hnew; simp at hnew
  | some z =>
  obtain ⟨r2, z⟩ := z
  rw [hh] at hnew
  cases z with
  | panic => simp at hnew
  | err e => simp at hnew
  | ok v =>
  obtain ⟨i, o, s⟩ := v
  simp only [Option.some.injEq, Prod.mk.injEq, Outcome.ok.injEq] at hnew
  obtain ⟨rfl, rfl⟩ := hnew
  obtain ⟨ρ1, ω1, φ1, t1, log, e1, g1, s1⟩ := handshakeN_script syncMatch hN magic role rng g d r _ _ hh
  obtain ⟨ρ2, ω2, φ2, t2, e2, g2, s2⟩ := syncCalls_script hN cs hc
  refine ⟨ρ1 ++ ρ2, ω1 ++ ω2, φ1 ++ φ2, t1 ++ t2, fun tρ tω tφ =>
    ⟨SyncN.on ⟨i, s, o, r2⟩ (ρ2 ++ tρ) ⟨ω2 ++ tω, φ2 ++ tφ, t1⟩, ?_, e2 tρ tω tφ t1⟩, ?_, ?_⟩
  · unfold SyncProtocol.new
    have e1 := e1 (ρ2 ++ tρ) (ω2 ++ tω) (φ2 ++ tφ) []
    simp only [List.append_assoc, List.nil_append] at e1 ⊢
    rw [e1]
    rfl
  · have g2 : p'.run.answers = r2.answers ++ ρ2 := g2
    rw [g2, g1]; simp
  · have s2 : p'.run.sent = r2.sent ++ t2 := s2
    rw [s2, s1]; simp

/-- C66, blocking API: a whole connection, the handshake and then any calls of the application, over any transport. -/
theorem C66_sync {N : Conn σ} (hN : N.Keeps) {magic rng : Bytes} {role : Role} {g : Option Bytes}
    {d : Option (List Bytes)} {r r1 : ConnRun σ} {p p' : SyncN σ} {cs : List Call} {xs : List Answer}
    (hnew : SyncN.new fuel N P prof magic role rng g d r = some (r1, .ok p))
    (hc : p.calls fuel N P prof cs = some (p', xs)) :
    ∃ (ρ : Source) (ω : List WEv) (φ : List (Option ErrorKind)) (q : SyncProtocol) (out : Bytes),
      SyncProtocol.new P prof magic role rng g d ρ ⟨ω, φ, []⟩ = .ok q ∧
      q.calls P prof cs = (p'.on [] ⟨[], [], out⟩, xs) ∧
      p'.run.answers = r.answers ++ ρ ∧ p'.run.sent = r.sent ++ out := by
  obtain ⟨ρ, ω, φ, out, h, h1, h2⟩ := sync_script hN hnew hc
  obtain ⟨q, h3, h4⟩ := h [] [] []
  simp only [List.append_nil] at h3
  exact ⟨ρ, ω, φ, q, out, h3, h4, h1, h2⟩

theorem async_script {N : PollConn σ} (hN : N.Keeps) {magic rng : Bytes} {role : Role} {g : Option Bytes}
    {d : Option (List Bytes)} {r r1 : ConnRun σ} {p p' : AsyncN σ} {cs : List Call} {xs : List Answer}
    (hnew : AsyncN.new fuel N P prof magic role rng g d r = some (r1, .ok p))
    (hc : p.calls fuel N P prof cs = some (p', xs)) :
    ∃ (ρ : Source) (ω : List WEv) (φ : List (Option ErrorKind)) (out : Bytes),
      (∀ tρ tω tφ, ∃ q : AsyncProtocol, AsyncProtocol.new P prof magic role rng g d (ρ ++ tρ) ⟨ω ++ tω, φ ++ tφ, []⟩ = .ok q ∧
        q.calls P prof cs = (p'.on tρ ⟨tω, tφ, out⟩, xs)) ∧
      p'.run.answers = r.answers ++ ρ ∧ p'.run.sent = r.sent ++ out := by
  unfold AsyncN.new at hnew
  cases hh : handshakeN fuel asyncN N.toConn P prof magic role rng g d r with
  | none => rw [hh] at hnew; simp at hnew
  | some z =>
  obtain ⟨r2, z⟩ := z
  rw [hh] at hnew
  cases z with
  | panic => simp at hnew
  | err e => simp at hnew
  | ok v =>
  obtain ⟨i, o, s⟩ := v
  simp only [Option.some.injEq, Prod.mk.injEq, Outcome.ok.injEq] at hnew
  obtain ⟨rfl, rfl⟩ := hnew
  obtain ⟨ρ1, ω1, φ1, t1, log, e1, g1, s1⟩ := handshakeN_script asyncMatch hN.conn magic role rng g d r _ _ hh
  obtain ⟨ρ2, ω2, φ2, t2, e2, g2, s2⟩ := asyncCalls_script hN cs hc
  refine ⟨ρ1 ++ ρ2, ω1 ++ ω2, φ1 ++ φ2, t1 ++ t2, fun tρ tω tφ =>
    ⟨AsyncN.on ⟨i, s, .initReadingLength, o, r2⟩ (ρ2 ++ tρ) ⟨ω2 ++ tω, φ2 ++ tφ, t1⟩, ?_, e2 tρ tω tφ t1⟩, ?_, ?_⟩
  · unfold AsyncProtocol.new
    have e1 := e1 (ρ2 ++ tρ) (ω2 ++ tω) (φ2 ++ tφ) []
    simp only [List.append_assoc, List.nil_append] at e1 ⊢
    rw [e1]
    rfl
  · have g2 : p'.run.answers = r2.answers ++ ρ2 := g2
    rw [g2, g1]; simp
  · have s2 : p'.run.sent = r2.sent ++ t2 := s2
    rw [s2, s1]; simp

/-- C66, asynchronous API; a call of `read` is one poll of it, after which the application may also drop the future. -/
theorem C66_async {N : PollConn σ} (hN : N.Keeps) {magic rng : Bytes} {role : Role} {g : Option Bytes}
    {d : Option (List Bytes)} {r r1 : ConnRun σ} {p p' : AsyncN σ} {cs : List Call} {xs : List Answer}
    (hnew : AsyncN.new fuel N P prof magic role rng g d r = some (r1, .ok p))
    (hc : p.calls fuel N P prof cs = some (p', xs)) :
    ∃ (ρ : Source) (ω : List WEv) (φ : List (Option ErrorKind)) (q : AsyncProtocol) (out : Bytes),
      AsyncProtocol.new P prof magic role rng g d ρ ⟨ω, φ, []⟩ = .ok q ∧
      q.calls P prof cs = (p'.on [] ⟨[], [], out⟩, xs) ∧
      p'.run.answers = r.answers ++ ρ ∧ p'.run.sent = r.sent ++ out := by
  obtain ⟨ρ, ω, φ, out, h, h1, h2⟩ := async_script hN hnew hc
  obtain ⟨q, h3, h4⟩ := h [] [] []
  simp only [List.append_nil] at h3
  exact ⟨ρ, ω, φ, q, out, h3, h4, h1, h2⟩

/-! ## Spelt out: what was read and what was sent -/

/-- The bytes that were read. -/
def ConnRun.got (r : ConnRun σ) : Bytes := r.answers.bytes

theorem ConnRun.got_of {r r' : ConnRun σ} {ρ : Source} (h : r'.answers = r.answers ++ ρ) : r'.got = r.got ++ ρ.bytes := by
  simp [ConnRun.got, h]


theorem syncCalls_halves (cs : List Call) : ∀ {q q' : SyncProtocol} {xs : List Answer}, q.calls P prof cs = (q', xs) →
    q.reader.readMany P prof (Call.reads cs) = (q'.reader, Answer.reads xs) ∧
      q.writer.writeMany .sync P prof (Call.writes cs) = (q'.writer, Answer.writes xs) := by
  induction cs with
  | nil =>
    intro q q' xs h
    simp only [SyncProtocol.calls, Prod.mk.injEq] at h
    obtain ⟨rfl, rfl⟩ := h
    exact ⟨rfl, rfl⟩
  | cons c cs ih =>
    intro q q' xs h
    cases c with
    | read =>
      simp only [SyncProtocol.calls, SyncProtocol.read, Prod.mk.injEq] at h
      obtain ⟨rfl, rfl⟩ := h
      obtain ⟨h1, h2⟩ := ih (q := ⟨(q.reader.read P prof).1, q.writer⟩) rfl
      exact ⟨by simp only [Call.reads, Answer.reads, SyncReader.readMany, h1], h2⟩
    | write p =>
      simp only [SyncProtocol.calls, SyncProtocol.write, Prod.mk.injEq] at h
      obtain ⟨rfl, rfl⟩ := h
      obtain ⟨h1, h2⟩ := ih (q := ⟨q.reader, (q.writer.writeSync P prof p).1⟩) rfl
      exact ⟨h1, by simp only [Call.writes, Answer.writes, Writer.writeMany, Writer.write, h2]⟩

theorem asyncCalls_halves (cs : List Call) : ∀ {q q' : AsyncProtocol} {xs : List Answer}, q.calls P prof cs = (q', xs) →
    q.reader.run P prof (List.replicate (Call.reads cs) .poll) = (q'.reader, Answer.reads xs) ∧
      q.writer.writeMany .async P prof (Call.writes cs) = (q'.writer, Answer.writes xs) := by
  induction cs with
  | nil =>
    intro q q' xs h
    simp only [AsyncProtocol.calls, Prod.mk.injEq] at h
    obtain ⟨rfl, rfl⟩ := h
    exact ⟨rfl, rfl⟩
  | cons c cs ih =>
    intro q q' xs h
    cases c with
    | read =>
      simp only [AsyncProtocol.calls, AsyncProtocol.pollRead, Prod.mk.injEq] at h
      obtain ⟨rfl, rfl⟩ := h
      obtain ⟨h1, h2⟩ := ih (q := ⟨(q.reader.poll P prof).1, q.writer⟩) rfl
      refine ⟨?_, ?_⟩
      · simp only [Call.reads, List.replicate_succ, AsyncReader.run]
        cases hp : q.reader.poll P prof with
        | mk r1 x =>
        rw [hp] at h1
        cases x with
        | pending => exact h1
        | ready x => simp only [h1]; rfl
      · cases hp : q.reader.poll P prof with
        | mk r1 x =>
        rw [hp] at h2
        cases x <;> exact h2
    | write p =>
      simp only [AsyncProtocol.calls, AsyncProtocol.write, Prod.mk.injEq] at h
      obtain ⟨rfl, rfl⟩ := h
      obtain ⟨h1, h2⟩ := ih (q := ⟨q.reader, (q.writer.writeAsync P prof p).1⟩) rfl
      exact ⟨h1, by simp only [Call.writes, Answer.writes, Writer.writeMany, Writer.write, h2]⟩

theorem Call.lengths (cs : List Call) : Call.reads cs + (Call.writes cs).length = cs.length := by
  induction cs with
  | nil => rfl
  | cons c cs ih => cases c <;> simp only [Call.reads, Call.writes, List.length_cons] <;> omega

/-- C66, blocking API: whatever the transport and the peer do, and however they react, if a connection was made and all
calls on it succeeded, then everything read from the transport is the handshake of BIP-324 and the packets of the messages
that `read` returned, in their order, and what has not been used yet; and everything written is our handshake and the packets of
what the application wrote, in its order. -/
theorem C66_connection_sync (hP : Lawful P) {N : Conn σ} (hN : N.Keeps) {magic rng : Bytes} {role : Role} {g : Option Bytes}
    {d : Option (List Bytes)} (hd : (d.getD []).length < 2 ^ 31) {r r1 : ConnRun σ} {p p' : SyncN σ} {cs : List Call}
    {xs : List Answer} (hnew : SyncN.new fuel N P prof magic role rng g d r = some (r1, .ok p))
    (hc : p.calls fuel N P prof cs = some (p', xs)) (hlen : p'.run.got.length < r.got.length + 2 ^ 35)
    (hk : cs.length < 2 ^ 30) (hr : ∀ x ∈ Answer.reads xs, ∃ q, x = .ok q) (hw : ∀ x ∈ Answer.writes xs, x = .ok ()) :
    ∃ peerKey garbage decoys version ms unread,
      let D := Spec.directions P magic (P.ellswift rng) peerKey rng role.initiating
      Spec.Admissible magic D.2.2.2 peerKey garbage decoys version ∧
      p'.run.got = r.got ++ (Spec.peerTranscript P D.2 peerKey garbage decoys version ++
        Spec.packetStream P D.2.1 D.2.2.1 (decoys.length + 1) [] ms ++ unread) ∧
      Answer.reads xs = ms.map (fun m => .ok (delivered m)) ∧
      (unread = if p'.sess.2 then [] else p'.sess.1) ∧
      p'.run.sent = r.sent ++ (Spec.ownTranscript P D.1 (P.ellswift rng) (g.getD []) (d.getD []) ++
        Spec.packetStream P D.1.1 D.1.2.1 ((d.getD []).length + 1) [] ((Call.writes cs).map headed)) := by
  obtain ⟨ρ, ω, φ, q, out, hq, hcalls, hans, hsent⟩ := C66_sync hN hnew hc
  have hgot := ConnRun.got_of hans
  obtain ⟨h1, h2⟩ := syncCalls_halves cs hcalls
  have hll := Call.lengths cs
  have hρ : ρ.bytes.length < 2 ^ 35 := by
    have := congrArg List.length hgot
    simp only [List.length_append] at this
    omega
  unfold SyncProtocol.new at hq
  cases hh : handshake syncApi P prof magic role rng g d ρ ⟨ω, φ, []⟩ with
  | mk w' y =>
  obtain ⟨log, y⟩ := y
  rw [hh] at hq
  cases y with
  | panic => simp at hq
  | err e => simp at hq
  | ok v =>
  obtain ⟨i, o, s⟩ := v
  simp only [Outcome.ok.injEq] at hq
  subst hq
  obtain ⟨peerKey, garbage, decoys, version, a1, a2, a3, a4, a5⟩ := C47_sync_sound hP (by omega) (by omega) hh
  have hcount : decoys.length + 1 < 2 ^ 31 := by
    have h4 := congrArg List.length a2
    have h5 := packetStream_length hP (Spec.directions P magic (P.ellswift rng) peerKey rng role.initiating).2.1
      (Spec.directions P magic (P.ellswift rng) peerKey rng role.initiating).2.2.1 0 garbage
      (Spec.handshakeMessages decoys version)
    simp only [Spec.peerTranscript, List.length_append] at h4
    have h6 : (Spec.handshakeMessages decoys version).length = decoys.length + 1 := by simp [Spec.handshakeMessages]
    omega
  obtain ⟨ms, b1, b2, -, b4, -⟩ := C46_sync hP (Call.reads cs) (r := ⟨i, s⟩) a3 (by omega) h1 hr
  refine ⟨peerKey, garbage, decoys, version, ms, _, a1, ?_, b1, rfl, ?_⟩
  · rw [hgot, a2, b4]
    have : (p'.on [] ⟨[], [], out⟩).reader.reader.bytes = if p'.sess.2 then [] else p'.sess.1 := by
      simp only [SyncN.on, SyncSession.bytes, SyncSession.abs]
      by_cases h : p'.sess.2 = true
      · simp [h, Source.bytes]
      · by_cases hl : p'.sess.1 = []
        · simp [hl, Source.bytes]
        · simp [h, hl, Source.bytes]
    simp only [this, List.append_assoc]
  · have hs : (p'.on [] ⟨[], [], out⟩).writer.writer.out = out := rfl
    obtain ⟨pre, hpre⟩ := writeMany_out (P := P) (prof := prof) .sync (Call.writes cs) ⟨o, w'⟩
    rw [h2, hs] at hpre
    have hS := sent_of_ok .sync (Call.writes cs) h2 hw (sent := pre) (by rw [hs]; exact hpre.symm)
    have h7 := (sent_stream hP hS a4 (by omega)).1
    rw [hsent, ← hpre, a5, h7]
    simp

/-- C66, asynchronous API: likewise; reads may be pending, cancelled or fail in between, as long as no write fails: then everything read from the transport is the handshake of BIP-324 and the packets of the messages
that `read` returned, in their order, and what has not been used yet; and everything written is our handshake and the packets of
what the application wrote, in its order. -/
theorem C66_connection_async (hP : Lawful P) {N : PollConn σ} (hN : N.Keeps) {magic rng : Bytes} {role : Role} {g : Option Bytes}
    {d : Option (List Bytes)} (hd : (d.getD []).length < 2 ^ 31) {r r1 : ConnRun σ} {p p' : AsyncN σ} {cs : List Call}
    {xs : List Answer} (hnew : AsyncN.new fuel N P prof magic role rng g d r = some (r1, .ok p))
    (hc : p.calls fuel N P prof cs = some (p', xs)) (hlen : p'.run.got.length < r.got.length + 2 ^ 35)
    (hk : cs.length < 2 ^ 30) (hw : ∀ x ∈ Answer.writes xs, x = .ok ()) :
    ∃ peerKey garbage decoys version ms held,
      let D := Spec.directions P magic (P.ellswift rng) peerKey rng role.initiating
      Spec.Admissible magic D.2.2.2 peerKey garbage decoys version ∧
      p'.run.got = r.got ++ (Spec.peerTranscript P D.2 peerKey garbage decoys version ++
        Spec.packetStream P D.2.1 D.2.2.1 (decoys.length + 1) [] ms ++ held ++ p'.sess.1.drop p'.sess.2) ∧
      payloads (Answer.reads xs) = ms.map delivered ∧
      held.length < 2 ^ 24 + 20 ∧
      p'.run.sent = r.sent ++ (Spec.ownTranscript P D.1 (P.ellswift rng) (g.getD []) (d.getD []) ++
        Spec.packetStream P D.1.1 D.1.2.1 ((d.getD []).length + 1) [] ((Call.writes cs).map headed)) := by
  obtain ⟨ρ, ω, φ, q, out, hq, hcalls, hans, hsent⟩ := C66_async hN hnew hc
  have hgot := ConnRun.got_of hans
  obtain ⟨h1, h2⟩ := asyncCalls_halves cs hcalls
  have hll := Call.lengths cs
  have hρ : ρ.bytes.length < 2 ^ 35 := by
    have := congrArg List.length hgot
    simp only [List.length_append] at this
    omega
  unfold AsyncProtocol.new at hq
  cases hh : handshake asyncApi P prof magic role rng g d ρ ⟨ω, φ, []⟩ with
  | mk w' y =>
  obtain ⟨log, y⟩ := y
  rw [hh] at hq
  cases y with
  | panic => simp at hq
  | err e => simp at hq
  | ok v =>
  obtain ⟨i, o, s⟩ := v
  simp only [Outcome.ok.injEq] at hq
  subst hq
  obtain ⟨peerKey, garbage, decoys, version, a1, a2, a3, a4, a5⟩ := C47_async_sound hP (by omega) (by omega) hh
  have hcount : decoys.length + 1 < 2 ^ 31 := by
    have h4 := congrArg List.length a2
    have h5 := packetStream_length hP (Spec.directions P magic (P.ellswift rng) peerKey rng role.initiating).2.1
      (Spec.directions P magic (P.ellswift rng) peerKey rng role.initiating).2.2.1 0 garbage
      (Spec.handshakeMessages decoys version)
    simp only [Spec.peerTranscript, List.length_append] at h4
    have h6 : (Spec.handshakeMessages decoys version).length = decoys.length + 1 := by simp [Spec.handshakeMessages]
    omega
  obtain ⟨ms, rest, b1, -, -, b4, b5⟩ := C46_async hP (List.replicate (Call.reads cs) .poll)
    (r := ⟨i, s, .initReadingLength⟩) (fresh_reads a3 rfl) (by rw [List.length_replicate]; omega) h1
  obtain ⟨-, held, b6, b7⟩ := reads_rest b5
  refine ⟨peerKey, garbage, decoys, version, ms, held, a1, ?_, b1, b7, ?_⟩
  · have : (p'.on [] ⟨[], [], out⟩).reader.reader.remaining = p'.sess.1.drop p'.sess.2 := by
      simp [AsyncN.on, AsyncSession.remaining, Source.bytes]
    rw [hgot, a2]
    have b4 : s.remaining = _ := b4
    rw [b4, b6, this]
    simp only [List.append_assoc]
  · have hs : (p'.on [] ⟨[], [], out⟩).writer.writer.out = out := rfl
    obtain ⟨pre, hpre⟩ := writeMany_out (P := P) (prof := prof) .async (Call.writes cs) ⟨o, w'⟩
    rw [h2, hs] at hpre
    have hS := sent_of_ok .async (Call.writes cs) h2 hw (sent := pre) (by rw [hs]; exact hpre.symm)
    have h7 := (sent_stream hP hS a4 (by omega)).1
    rw [hsent, ← hpre, a5, h7]
    simp

/-! ## A peer that reacts -/

/-- What the peer of the example has to say after receiving `inbox`: nothing before it has our key, then its handshake, and
when it has our handshake (100 bytes) and a packet of 23 bytes, a message with the first two bytes of that packet. -/
def sampleReply (inbox : Bytes) : Bytes :=
  if inbox.length < 64 then []
  else
    let key := toy.ellswift (leBytes 32 5)
    let D := Spec.directions toy (leBytes 4 7) key (inbox.take 64) (leBytes 32 5) false
    Spec.peerTranscript toy D.1 key [9, 9, 9] [[1]] (0, []) ++
      (if inbox.length < 123 then [] else Spec.packetStream toy D.1.1 D.1.2.1 2 [] [(0, (inbox.drop 100).take 2)])

/-- It takes at most seven bytes at a time and gives at most eleven.  When it has nothing to say, a blocking read does not
return and a poll is pending. -/
def samplePeer : PollConn (Bytes × Nat) where
  read s n :=
    if s.2 < (sampleReply s.1).length then
      some ((s.1, s.2 + (((sampleReply s.1).drop s.2).take (min n 11)).length),
        .ok (((sampleReply s.1).drop s.2).take (min n 11)))
    else none
  write s b := some ((s.1 ++ b.take 7, s.2), .ok (b.take 7).length)
  flush s := some (s, .ok ())
  pollRead s n :=
    if s.2 < (sampleReply s.1).length then
      ((s.1, s.2 + (((sampleReply s.1).drop s.2).take (min n 11)).length),
        .ready (.ok (((sampleReply s.1).drop s.2).take (min n 11))))
    else (s, .pending)

theorem samplePeer_keeps : samplePeer.Keeps := by
  refine ⟨⟨fun s n s' bs h => ?_, fun s b s' n h => ?_⟩, fun s n s' bs h => ?_⟩
  · simp only [samplePeer] at h
    split at h
    · simp only [Option.some.injEq, Prod.mk.injEq, ReadRes.ok.injEq] at h
      obtain ⟨-, rfl⟩ := h
      simp only [List.length_take]
      omega
    · simp at h
  · simp only [samplePeer, Option.some.injEq, Prod.mk.injEq, Except.ok.injEq] at h
    obtain ⟨-, rfl⟩ := h
    simp only [List.length_take]
    omega
  · simp only [samplePeer] at h
    split at h
    · simp only [Prod.mk.injEq, PollRead.ready.injEq, ReadRes.ok.injEq] at h
      obtain ⟨-, rfl⟩ := h
      simp only [List.length_take]
      omega
    · simp at h

/-- With it the hypotheses of the theorems hold: the handshake succeeds, then a write, and a read whose answer depends on
the bytes that were written.  Reading before writing would never return. -/
example : (match SyncN.new 200 samplePeer.toConn toy .debug (leBytes 4 7) .initiator (leBytes 32 3) none none
      ⟨([], 0), [], []⟩ with
    | some (r1, .ok p) =>
      r1.got.length == 124 && r1.sent.length == 100 &&
      (match p.calls 200 samplePeer.toConn toy .debug [.write (.genuine [4, 5, 6]), .read] with
      | some (p', xs) => xs == [.wrote (.ok ()), .read (.ok (.decrypted (0 :: (p'.run.sent.drop 100).take 2)))]
      | none => false) &&
      (match p.calls 200 samplePeer.toConn toy .debug [.read] with
      | some _ => false
      | none => true)
    | _ => false) = true := by decide +kernel

/-- Asynchronously: polling before writing is pending. -/
example : (match AsyncN.new 200 samplePeer toy .debug (leBytes 4 7) .initiator (leBytes 32 3) none none
      ⟨([], 0), [], []⟩ with
    | some (_, .ok p) =>
      (match p.calls 200 samplePeer toy .debug [.read, .write (.genuine [4, 5, 6]), .read] with
      | some (p', xs) => xs == [.pending, .wrote (.ok ()), .read (.ok (.decrypted (0 :: (p'.run.sent.drop 100).take 2)))]
      | none => false)
    | _ => false) = true := by decide +kernel

end Bip324
