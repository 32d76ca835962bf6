import Verif.Lemmas.ScriptConn
import Verif.Props.AnyTransport

/-!
# Any transport, continued: C66

The converse of `Verif/Props/AnyTransport.lean`.  Every script is a transport, and over it the code of
`Verif/Model/AnyTransport.lean` ends with the result that the code of `Verif/Model/Io.lean` and `Verif/Model/Futures.lean`
has on the script.  And the fuel of that model only says how long one waits: two executions that end agree.
-/

namespace Bip324

variable {P : Prims} {prof : Profile} {σ : Type}

/-! ## Fuel -/

theorem syncNew_stays (N : Conn σ) (magic : Bytes) (role : Role) (rng : Bytes) (g : Option Bytes)
    (d : Option (List Bytes)) (r : ConnRun σ) : Stays fun f => SyncN.new f N P prof magic role rng g d r := by
  intro f a h
  have h1 := handshakeN_stays (P := P) (prof := prof) syncN N magic role rng g d r f
  simp only [SyncN.new] at h h1 ⊢
  repeat' split at h
  all_goals grind

theorem asyncNew_stays (N : PollConn σ) (magic : Bytes) (role : Role) (rng : Bytes) (g : Option Bytes)
    (d : Option (List Bytes)) (r : ConnRun σ) : Stays fun f => AsyncN.new f N P prof magic role rng g d r := by
  intro f a h
  have h1 := handshakeN_stays (P := P) (prof := prof) asyncN N.toConn magic role rng g d r f
  simp only [AsyncN.new] at h h1 ⊢
  repeat' split at h
  all_goals grind

theorem syncCalls_stays (N : Conn σ) (cs : List Call) (p : SyncN σ) : Stays fun f => p.calls f N P prof cs := by
  intro f
  simp only
  induction cs generalizing p with
  | nil => intro a h; exact h
  | cons c cs ih =>
    intro a h
    cases c with
    | read =>
      have h1 := syncReadN_stays (P := P) (prof := prof) N p.inbound (p.sess, p.run) f
      simp only [SyncN.calls, SyncN.read] at h h1 ⊢
      repeat' split at h
      all_goals grind
    | write q =>
      have h1 := writeN_stays (P := P) (prof := prof) .sync N p.outbound p.run q f
      simp only [SyncN.calls, SyncN.write] at h h1 ⊢
      repeat' split at h
      all_goals grind

theorem asyncCalls_stays (N : PollConn σ) (cs : List Call) (p : AsyncN σ) : Stays fun f => p.calls f N P prof cs := by
  intro f
  simp only
  induction cs generalizing p with
  | nil => intro a h; exact h
  | cons c cs ih =>
    intro a h
    cases c with
    | read =>
      have h1 := pollN_stays (P := P) (prof := prof) N ⟨p.inbound, (p.sess, p.run), p.state⟩ f
      simp only [AsyncN.calls, AsyncN.pollRead] at h h1 ⊢
      repeat' split at h
      all_goals grind
    | write q =>
      have h1 := writeN_stays (P := P) (prof := prof) .async N.toConn p.outbound p.run q f
      simp only [AsyncN.calls, AsyncN.write] at h h1 ⊢
      repeat' split at h
      all_goals grind

/-- C66: the fuel is no part of the behaviour.  Two executions of the same calls over the same transport that end are the
same. -/
theorem C66_fuel_sync {N : Conn σ} {magic rng : Bytes} {role : Role} {g : Option Bytes} {d : Option (List Bytes)}
    {r r1 r2 : ConnRun σ} {f1 f2 k1 k2 : Nat} {p1 p2 p1' p2' : SyncN σ} {cs : List Call} {xs1 xs2 : List Answer}
    (h1 : SyncN.new f1 N P prof magic role rng g d r = some (r1, .ok p1))
    (h2 : SyncN.new f2 N P prof magic role rng g d r = some (r2, .ok p2))
    (c1 : p1.calls k1 N P prof cs = some (p1', xs1)) (c2 : p2.calls k2 N P prof cs = some (p2', xs2)) :
    p1 = p2 ∧ p1' = p2' ∧ xs1 = xs2 := by
  have h := (syncNew_stays (P := P) (prof := prof) N magic role rng g d r).unique h1 h2
  simp only [Prod.mk.injEq, Outcome.ok.injEq] at h
  obtain ⟨-, rfl⟩ := h
  have h := (syncCalls_stays (P := P) (prof := prof) N cs p1).unique c1 c2
  simp only [Prod.mk.injEq] at h
  exact ⟨rfl, h⟩

theorem C66_fuel_async {N : PollConn σ} {magic rng : Bytes} {role : Role} {g : Option Bytes} {d : Option (List Bytes)}
    {r r1 r2 : ConnRun σ} {f1 f2 k1 k2 : Nat} {p1 p2 p1' p2' : AsyncN σ} {cs : List Call} {xs1 xs2 : List Answer}
    (h1 : AsyncN.new f1 N P prof magic role rng g d r = some (r1, .ok p1))
    (h2 : AsyncN.new f2 N P prof magic role rng g d r = some (r2, .ok p2))
    (c1 : p1.calls k1 N P prof cs = some (p1', xs1)) (c2 : p2.calls k2 N P prof cs = some (p2', xs2)) :
    p1 = p2 ∧ p1' = p2' ∧ xs1 = xs2 := by
  have h := (asyncNew_stays (P := P) (prof := prof) N magic role rng g d r).unique h1 h2
  simp only [Prod.mk.injEq, Outcome.ok.injEq] at h
  obtain ⟨-, rfl⟩ := h
  have h := (asyncCalls_stays (P := P) (prof := prof) N cs p1).unique c1 c2
  simp only [Prod.mk.injEq] at h
  exact ⟨rfl, h⟩

/-- It only grows: what ends within some steps ends with the same result within more. -/
theorem C66_fuel_grows {N : Conn σ} {M : PollConn σ} {magic rng : Bytes} {role : Role} {g : Option Bytes}
    {d : Option (List Bytes)} {r : ConnRun σ} {cs : List Call} {p : SyncN σ} {q : AsyncN σ} {f f' : Nat} (hf : f ≤ f') :
    (∀ a, SyncN.new f N P prof magic role rng g d r = some a → SyncN.new f' N P prof magic role rng g d r = some a) ∧
    (∀ a, AsyncN.new f M P prof magic role rng g d r = some a → AsyncN.new f' M P prof magic role rng g d r = some a) ∧
    (∀ a, p.calls f N P prof cs = some a → p.calls f' N P prof cs = some a) ∧
    (∀ a, q.calls f M P prof cs = some a → q.calls f' M P prof cs = some a) :=
  ⟨fun _ h => (syncNew_stays N magic role rng g d r).le hf h, fun _ h => (asyncNew_stays M magic role rng g d r).le hf h,
    fun _ h => (syncCalls_stays N cs p).le hf h, fun _ h => (asyncCalls_stays M cs q).le hf h⟩

/-! ## Every script is a transport -/

/-- The transport of a script meets the contracts of `Read` and `Write`, so the theorems of `AnyTransport` apply to it. -/
theorem scriptConn_keeps : scriptConn.Keeps := by
  have hr : ∀ (s : Source) n s' bs, s.read n = (s', .ok bs) → bs.length ≤ n := by
    intro s n
    induction s with
    | nil => intro s' bs h; simp only [Source.read, Prod.mk.injEq, ReadRes.ok.injEq] at h; obtain ⟨-, rfl⟩ := h; simp
    | cons e s ih =>
      intro s' bs h
      cases e with
      | pending => exact ih s' bs h
      | fail k => simp [Source.read] at h
      | data b =>
        simp only [Source.read] at h
        split at h
        all_goals
          simp only [Prod.mk.injEq, ReadRes.ok.injEq] at h
          obtain ⟨-, rfl⟩ := h
        · assumption
        · simp only [List.length_take]; omega
  have hp : ∀ (s : Source) n s' bs, s.pollRead n = (s', .ready (.ok bs)) → bs.length ≤ n := by
    intro s n s' bs h
    cases s with
    | nil => simp only [Source.pollRead, Prod.mk.injEq, PollRead.ready.injEq, ReadRes.ok.injEq] at h; obtain ⟨-, rfl⟩ := h; simp
    | cons e s =>
      cases e with
      | pending => simp [Source.pollRead] at h
      | fail k => simp [Source.pollRead] at h
      | data b =>
        simp only [Source.pollRead] at h
        split at h
        all_goals
          simp only [Prod.mk.injEq, PollRead.ready.injEq, ReadRes.ok.injEq] at h
          obtain ⟨-, rfl⟩ := h
        · assumption
        · simp only [List.length_take]; omega
  have hw : ∀ (s : List WEv) b n, (writeGo s b).2.2 = .ok n → n ≤ b.length := by
    intro s b
    induction s with
    | nil => intro n h; simp only [writeGo, Except.ok.injEq] at h; omega
    | cons e s ih =>
      intro n h
      cases e with
      | pending => exact ih n h
      | fail k => simp [writeGo] at h
      | accept m => simp only [writeGo, Except.ok.injEq] at h; omega
  refine ⟨⟨fun s n s' bs h => ?_, fun s b s' n h => ?_⟩, fun s n s' bs h => ?_⟩
  · simp only [scriptConn, Option.some.injEq, Prod.mk.injEq] at h
    exact hr s.1 n _ bs (Prod.ext rfl h.2)
  · simp only [scriptConn, Option.some.injEq, Prod.mk.injEq] at h
    exact hw _ b n h.2
  · simp only [scriptConn, Prod.mk.injEq] at h
    exact hp s.1 n _ bs (Prod.ext rfl h.2)

theorem syncRead_of {N : Conn σ} {f : Nat} {p : SyncN σ} {c : InboundCipher} {s : syncN.Sess} {r : ConnRun σ}
    {x : Outcome ProtocolError Payload}
    (h : syncReadN f N P prof p.inbound ((p.sess, p.run) : syncN.Sess × ConnRun σ) = some ((c, (s, r)), x)) :
    SyncN.read f N P prof p = some (⟨c, s, p.outbound, r⟩, x) := by
  unfold SyncN.read
  rw [h]

theorem syncCalls_ends (cs : List Call) : ∀ p : SyncN (Source × Sink), ∃ p',
    Ends (fun f => p.calls f scriptConn.toConn P prof cs) (p', ((p.on p.run.net.1 p.run.net.2).calls P prof cs).2) ∧
      ((p.on p.run.net.1 p.run.net.2).calls P prof cs).1 = p'.on p'.run.net.1 p'.run.net.2 := by
  induction cs with
  | nil => intro p; exact ⟨p, ⟨0, fun f _ => rfl⟩, rfl⟩
  | cons c cs ih =>
    intro p
    cases c with
    | read =>
      obtain ⟨c', ⟨s1, s2⟩, x, ⟨f1, e1⟩, h1, h2⟩ := syncReadN_ends (P := P) (prof := prof) p.inbound (p.sess, p.run)
      obtain ⟨p', ⟨f2, e2⟩, h3⟩ := ih ⟨c', s1, p.outbound, s2⟩
      have hr : (p.on p.run.net.1 p.run.net.2).read P prof =
          ((⟨c', s1, p.outbound, s2⟩ : SyncN (Source × Sink)).on s2.net.1 s2.net.2, x) := by
        simp only [SyncProtocol.read, SyncN.on]
        simp only at h1
        rw [h1, h2]
      refine ⟨p', ⟨f1 + f2, fun f hf => ?_⟩, ?_⟩
      · have e3 : SyncN.read f scriptConn.toConn P prof p = some (⟨c', s1, p.outbound, s2⟩, x) :=
          syncRead_of (e1 f (by omega))
        have e2 := e2 f (by omega)
        simp only at e2
        simp only [SyncN.calls, e3, e2, SyncProtocol.calls, hr]
      · simp only [SyncProtocol.calls, hr, h3]
    | write q =>
      obtain ⟨c', r', x, ⟨f1, e1⟩, h1, h2⟩ := writeN_ends (P := P) (prof := prof) .sync p.outbound p.run q
      obtain ⟨p', ⟨f2, e2⟩, h3⟩ := ih ⟨p.inbound, p.sess, c', r'⟩
      have hr : (p.on p.run.net.1 p.run.net.2).write P prof q =
          ((⟨p.inbound, p.sess, c', r'⟩ : SyncN (Source × Sink)).on r'.net.1 r'.net.2, x) := by
        simp only [SyncProtocol.write, SyncN.on]
        simp only [Writer.write] at h1
        rw [h1, h2]
      refine ⟨p', ⟨f1 + f2, fun f hf => ?_⟩, ?_⟩
      · simp only [SyncN.calls, SyncN.write, e1 f (by omega), e2 f (by omega), SyncProtocol.calls, hr]
      · simp only [SyncProtocol.calls, hr, h3]

theorem asyncCalls_ends (cs : List Call) : ∀ p : AsyncN (Source × Sink), ∃ p',
    Ends (fun f => p.calls f scriptConn P prof cs) (p', ((p.on p.run.net.1 p.run.net.2).calls P prof cs).2) ∧
      ((p.on p.run.net.1 p.run.net.2).calls P prof cs).1 = p'.on p'.run.net.1 p'.run.net.2 := by
  induction cs with
  | nil => intro p; exact ⟨p, ⟨0, fun f _ => rfl⟩, rfl⟩
  | cons c cs ih =>
    intro p
    cases c with
    | read =>
      obtain ⟨⟨c', ⟨s1, s2⟩, st⟩, x, ⟨f1, e1⟩, h1, h2⟩ := pollN_ends (P := P) (prof := prof) ⟨p.inbound, (p.sess, p.run), p.state⟩
      obtain ⟨p', ⟨f2, e2⟩, h3⟩ := ih ⟨c', s1, st, p.outbound, s2⟩
      have hr : (p.on p.run.net.1 p.run.net.2).pollRead P prof =
          ((⟨c', s1, st, p.outbound, s2⟩ : AsyncN (Source × Sink)).on s2.net.1 s2.net.2, x) := by
        simp only [AsyncProtocol.pollRead, AsyncN.on]
        simp only [AsyncReaderN.onScript] at h1 h2
        rw [h1, h2]
      refine ⟨p', ⟨f1 + f2, fun f hf => ?_⟩, ?_⟩
      · simp only [AsyncN.calls, AsyncN.pollRead, e1 f (by omega), e2 f (by omega), AsyncProtocol.calls, hr]
      · simp only [AsyncProtocol.calls, hr, h3]
    | write q =>
      obtain ⟨c', r', x, ⟨f1, e1⟩, h1, h2⟩ := writeN_ends (P := P) (prof := prof) .async p.outbound p.run q
      obtain ⟨p', ⟨f2, e2⟩, h3⟩ := ih ⟨p.inbound, p.sess, p.state, c', r'⟩
      have hr : (p.on p.run.net.1 p.run.net.2).write P prof q =
          ((⟨p.inbound, p.sess, p.state, c', r'⟩ : AsyncN (Source × Sink)).on r'.net.1 r'.net.2, x) := by
        simp only [AsyncProtocol.write, AsyncN.on]
        simp only [Writer.write] at h1
        rw [h1, h2]
      refine ⟨p', ⟨f1 + f2, fun f hf => ?_⟩, ?_⟩
      · simp only [AsyncN.calls, AsyncN.write, e1 f (by omega), e2 f (by omega), AsyncProtocol.calls, hr]
      · simp only [AsyncProtocol.calls, hr, h3]

/-- C66, the converse: over the transport of a script the connection ends as on the script.  Every outcome of the
handshake, and then any calls. -/
theorem C66_every_script_sync (P : Prims) (prof : Profile) (magic rng : Bytes) (role : Role) (g : Option Bytes)
    (d : Option (List Bytes)) (src : Source) (w : Sink) :
    match SyncProtocol.new P prof magic role rng g d src w with
    | .panic => ∃ r, Ends (fun f => SyncN.new f scriptConn.toConn P prof magic role rng g d ⟨(src, w), [], []⟩) (r, .panic)
    | .err e => ∃ r, Ends (fun f => SyncN.new f scriptConn.toConn P prof magic role rng g d ⟨(src, w), [], []⟩) (r, .err e)
    | .ok q => ∃ r p, Ends (fun f => SyncN.new f scriptConn.toConn P prof magic role rng g d ⟨(src, w), [], []⟩) (r, .ok p) ∧
      ∀ cs, ∃ p', Ends (fun f => p.calls f scriptConn.toConn P prof cs) (p', (q.calls P prof cs).2) ∧
        (q.calls P prof cs).1 = p'.on p'.run.net.1 p'.run.net.2 := by
  obtain ⟨r, x, log, ⟨f0, e⟩, h⟩ := handshakeN_ends (P := P) (prof := prof) syncLike magic role rng g d ⟨(src, w), [], []⟩
  simp only at h
  unfold SyncProtocol.new
  rw [h]
  cases x with
  | panic => exact ⟨r, f0, fun f hf => by simp only [SyncN.new, e f hf]⟩
  | err er => exact ⟨r, f0, fun f hf => by simp only [SyncN.new, e f hf]⟩
  | ok v =>
    obtain ⟨i, o, s⟩ := v
    exact ⟨r, ⟨i, s, o, r⟩, ⟨f0, fun f hf => by simp only [SyncN.new, e f hf]⟩, fun cs => syncCalls_ends cs ⟨i, s, o, r⟩⟩

theorem C66_every_script_async (P : Prims) (prof : Profile) (magic rng : Bytes) (role : Role) (g : Option Bytes)
    (d : Option (List Bytes)) (src : Source) (w : Sink) :
    match AsyncProtocol.new P prof magic role rng g d src w with
    | .panic => ∃ r, Ends (fun f => AsyncN.new f scriptConn P prof magic role rng g d ⟨(src, w), [], []⟩) (r, .panic)
    | .err e => ∃ r, Ends (fun f => AsyncN.new f scriptConn P prof magic role rng g d ⟨(src, w), [], []⟩) (r, .err e)
    | .ok q => ∃ r p, Ends (fun f => AsyncN.new f scriptConn P prof magic role rng g d ⟨(src, w), [], []⟩) (r, .ok p) ∧
      ∀ cs, ∃ p', Ends (fun f => p.calls f scriptConn P prof cs) (p', (q.calls P prof cs).2) ∧
        (q.calls P prof cs).1 = p'.on p'.run.net.1 p'.run.net.2 := by
  obtain ⟨r, x, log, ⟨f0, e⟩, h⟩ := handshakeN_ends (P := P) (prof := prof) asyncLike magic role rng g d ⟨(src, w), [], []⟩
  simp only at h
  unfold AsyncProtocol.new
  rw [h]
  cases x with
  | panic => exact ⟨r, f0, fun f hf => by simp only [AsyncN.new, e f hf]⟩
  | err er => exact ⟨r, f0, fun f hf => by simp only [AsyncN.new, e f hf]⟩
  | ok v =>
    obtain ⟨i, o, s⟩ := v
    exact ⟨r, ⟨i, s, .initReadingLength, o, r⟩, ⟨f0, fun f hf => by simp only [AsyncN.new, e f hf]⟩,
      fun cs => asyncCalls_ends cs ⟨i, s, .initReadingLength, o, r⟩⟩

/-- With a script on which the handshake and a read succeed, cut into pieces and with an interruption: the transport of it
ends within two hundred steps, with the same answers. -/
example :
    let reply := sampleReply (toy.ellswift (leBytes 32 3) ++ List.replicate 59 0)
    let src : Source := [.data (reply.take 30), .fail .interrupted, .data (reply.drop 30)]
    (match SyncN.new 200 scriptConn.toConn toy .debug (leBytes 4 7) .initiator (leBytes 32 3) none none
        ⟨(src, ⟨[.accept 5, .pending], [], []⟩), [], []⟩,
      SyncProtocol.new toy .debug (leBytes 4 7) .initiator (leBytes 32 3) none none src ⟨[.accept 5, .pending], [], []⟩ with
    | some (_, .ok p), .ok q =>
      (match p.calls 200 scriptConn.toConn toy .debug [.read, .write (.genuine [1]), .read] with
      | some (_, xs) => xs == [.read (.ok (.decrypted [0, 0, 0])), .wrote (.ok ()), .read (.err (.io .unexpectedEof .retryV1))] &&
          xs == (q.calls toy .debug [.read, .write (.genuine [1]), .read]).2
      | none => false)
    | _, _ => false) = true := by decide +kernel

end Bip324
