import Verif.Lemmas.Buffered
import Verif.Props.AnyTransport

/-!
# Cuts between reads, and `BufReader`: C68

However a transport cuts its bytes into reads, and wherever failures, empty reads and `Pending`s stand between them, the
handshake, every read and every write give the same results.  A `BufReader` around the transport, as the documentation
recommends, only changes the cuts: the application sees what it would see without it from a transport that gives the same
answers.
-/

namespace Bip324

variable {P : Prims} {prof : Profile} {σ : Type} {fuel : Nat}

/-! ## Cuts -/

/-- Two sessions that differ in the cuts of what is still to be read. -/
def SyncProtocol.Same (a b : SyncProtocol) : Prop :=
  a.reader.cipher = b.reader.cipher ∧ a.reader.reader.abs.events = b.reader.reader.abs.events ∧ a.writer = b.writer

def AsyncProtocol.Same (a b : AsyncProtocol) : Prop := a.reader.Same b.reader ∧ a.writer = b.writer

/-- Two results of a handshake with the same error, or with sessions that differ in the cuts. -/
def CutResult {S : Type} (Same : S → S → Prop) : Outcome ProtocolError S → Outcome ProtocolError S → Prop
  | .ok a, .ok b => Same a b
  | .err e, .err e' => e = e'
  | .panic, .panic => True
  | _, _ => False

/-- C68, the handshake: over two scripts with the same events it sends the same bytes and has the same result. -/
theorem C68_cuts_handshake_sync (hP : Lawful P) {magic rng : Bytes} {role : Role} {g : Option Bytes} {d : Option (List Bytes)}
    {s t : Source} (hst : s.events = t.events) (w : Sink) :
    (handshake syncApi P prof magic role rng g d s w).1 = (handshake syncApi P prof magic role rng g d t w).1 ∧
      CutResult SyncProtocol.Same (SyncProtocol.new P prof magic role rng g d s w)
        (SyncProtocol.new P prof magic role rng g d t w) := by
  obtain ⟨h1, h2⟩ := handshake_same (prof := prof) syncAbs hP magic role rng g d hst w
  refine ⟨h1, ?_⟩
  unfold SyncProtocol.new
  cases ha : handshake syncApi P prof magic role rng g d s w with
  | mk wa xa =>
  obtain ⟨la, xa⟩ := xa
  cases hb : handshake syncApi P prof magic role rng g d t w with
  | mk wb xb =>
  obtain ⟨lb, xb⟩ := xb
  rw [ha, hb] at h1 h2
  simp only at h1 h2
  subst h1
  cases xa with
  | panic => cases xb with
    | panic => trivial
    | err e => simp [sessView] at h2
    | ok v => simp [sessView] at h2
  | err e => cases xb with
    | panic => simp [sessView] at h2
    | err e' => simp only [sessView, Outcome.err.injEq] at h2; exact h2
    | ok v => simp [sessView] at h2
  | ok v => cases xb with
    | panic => simp [sessView] at h2
    | err e => simp [sessView] at h2
    | ok v' =>
      obtain ⟨i, o, a⟩ := v
      obtain ⟨i', o', b⟩ := v'
      simp only [sessView, Outcome.ok.injEq, Prod.mk.injEq] at h2
      obtain ⟨rfl, rfl, h2⟩ := h2
      exact ⟨rfl, h2, rfl⟩

theorem C68_cuts_handshake_async (hP : Lawful P) {magic rng : Bytes} {role : Role} {g : Option Bytes}
    {d : Option (List Bytes)} {s t : Source} (hst : s.events = t.events) (w : Sink) :
    (handshake asyncApi P prof magic role rng g d s w).1 = (handshake asyncApi P prof magic role rng g d t w).1 ∧
      CutResult AsyncProtocol.Same (AsyncProtocol.new P prof magic role rng g d s w)
        (AsyncProtocol.new P prof magic role rng g d t w) := by
  obtain ⟨h1, h2⟩ := handshake_same (prof := prof) asyncAbs hP magic role rng g d hst w
  refine ⟨h1, ?_⟩
  unfold AsyncProtocol.new
  cases ha : handshake asyncApi P prof magic role rng g d s w with
  | mk wa xa =>
  obtain ⟨la, xa⟩ := xa
  cases hb : handshake asyncApi P prof magic role rng g d t w with
  | mk wb xb =>
  obtain ⟨lb, xb⟩ := xb
  rw [ha, hb] at h1 h2
  simp only at h1 h2
  subst h1
  cases xa with
  | panic => cases xb with
    | panic => trivial
    | err e => simp [sessView] at h2
    | ok v => simp [sessView] at h2
  | err e => cases xb with
    | panic => simp [sessView] at h2
    | err e' => simp only [sessView, Outcome.err.injEq] at h2; exact h2
    | ok v => simp [sessView] at h2
  | ok v => cases xb with
    | panic => simp [sessView] at h2
    | err e => simp [sessView] at h2
    | ok v' =>
      obtain ⟨i, o, a⟩ := v
      obtain ⟨i', o', b⟩ := v'
      simp only [sessView, Outcome.ok.injEq, Prod.mk.injEq] at h2
      obtain ⟨rfl, rfl, h2⟩ := h2
      exact ⟨⟨rfl, rfl, h2⟩, rfl⟩

/-- C68, the session: any calls give the same answers. -/
theorem C68_cuts_calls_sync (cs : List Call) : ∀ {a b : SyncProtocol}, a.Same b →
    (a.calls P prof cs).2 = (b.calls P prof cs).2 ∧ (a.calls P prof cs).1.Same (b.calls P prof cs).1 := by
  induction cs with
  | nil => exact fun h => ⟨rfl, h⟩
  | cons c cs ih =>
    rintro ⟨⟨c1, s⟩, w⟩ ⟨⟨c2, t⟩, w'⟩ ⟨rfl, hst, rfl⟩
    simp only at hst
    cases c with
    | read =>
      obtain ⟨c', s', t', x, e1, e2, h'⟩ := syncRead_same (P := P) (prof := prof) (c := c1) hst
      obtain ⟨i1, i2⟩ := ih (a := ⟨⟨c', s'⟩, w⟩) (b := ⟨⟨c', t'⟩, w⟩) ⟨rfl, h', rfl⟩
      simp only [SyncProtocol.calls, SyncProtocol.read, e1, e2, i1]
      exact ⟨trivial, i2⟩
    | write q =>
      obtain ⟨i1, i2⟩ := ih (a := ⟨⟨c1, s⟩, (w.writeSync P prof q).1⟩) (b := ⟨⟨c1, t⟩, (w.writeSync P prof q).1⟩)
        ⟨rfl, hst, rfl⟩
      simp only [SyncProtocol.calls, SyncProtocol.write, i1]
      exact ⟨trivial, i2⟩

theorem C68_cuts_calls_async (cs : List Call) : ∀ {a b : AsyncProtocol}, a.Same b →
    (a.calls P prof cs).2 = (b.calls P prof cs).2 ∧ (a.calls P prof cs).1.Same (b.calls P prof cs).1 := by
  induction cs with
  | nil => exact fun h => ⟨rfl, h⟩
  | cons c cs ih =>
    rintro ⟨r, w⟩ ⟨r', w'⟩ ⟨hr, rfl⟩
    simp only at hr
    cases c with
    | read =>
      obtain ⟨e, h'⟩ := poll_same (P := P) (prof := prof) hr
      obtain ⟨i1, i2⟩ := ih (a := ⟨(r.poll P prof).1, w⟩) (b := ⟨(r'.poll P prof).1, w⟩) ⟨h', rfl⟩
      simp only [AsyncProtocol.calls, AsyncProtocol.pollRead, e, i1]
      exact ⟨trivial, i2⟩
    | write q =>
      obtain ⟨i1, i2⟩ := ih (a := ⟨r, (w.writeAsync P prof q).1⟩) (b := ⟨r', (w.writeAsync P prof q).1⟩) ⟨hr, rfl⟩
      simp only [AsyncProtocol.calls, AsyncProtocol.write, i1]
      exact ⟨trivial, i2⟩

/-! ## `BufReader` -/

/-- The record above the `BufReader` and the record below it: the answers of the transport are the answers that the
library got and then the contents of the buffer. -/
def Buffered (r : ConnRun (BufState (ConnRun σ))) : Prop :=
  r.net.inner.answers.events = r.answers.events ++ toks r.net.buf ∧ r.net.inner.sent = r.sent

theorem events_one {bs : Bytes} (h : bs ≠ []) : Source.events [.data bs] = toks bs := by
  rw [events_data h]; simp [Source.events]

theorem take_ne_nil {bs : Bytes} {n : Nat} (h : bs ≠ []) (hn : 0 < n) : bs.take n ≠ [] := by
  cases bs with
  | nil => exact absurd rfl h
  | cons b bs => cases n with
    | zero => omega
    | succ n => simp

theorem readRun_answers {N : Conn σ} {r r' : ConnRun σ} {n : Nat} {x : ReadRes} (h : N.readRun r n = some (r', x)) :
    r'.answers = r.answers ++ [match x with | .ok bs => .data bs | .err k => .fail k] ∧ r'.sent = r.sent := by
  unfold Conn.readRun at h
  split at h <;> simp only [Option.some.injEq, Prod.mk.injEq, reduceCtorEq] at h
  · obtain ⟨rfl, rfl⟩ := h; exact ⟨rfl, rfl⟩
  · obtain ⟨rfl, rfl⟩ := h; exact ⟨rfl, rfl⟩

theorem pollRun_answers {N : PollConn σ} {r r' : ConnRun σ} {n : Nat} {x : PollRead} (h : N.pollRun r n = (r', x)) :
    r'.answers = r.answers ++ [match x with | .pending => .pending | .ready (.ok bs) => .data bs | .ready (.err k) => .fail k] ∧
      r'.sent = r.sent := by
  unfold PollConn.pollRun at h
  split at h <;> simp only [Prod.mk.injEq] at h
  · obtain ⟨rfl, rfl⟩ := h; exact ⟨rfl, rfl⟩
  · obtain ⟨rfl, rfl⟩ := h; exact ⟨rfl, rfl⟩
  · obtain ⟨rfl, rfl⟩ := h; exact ⟨rfl, rfl⟩

/-- The bytes of one fill of the buffer: some go to the library, the rest stays. -/
theorem events_fill (n : Nat) (hn : 0 < n) (bs : Bytes) :
    Source.events [.data bs] = Source.events [.data (bs.take n)] ++ toks (bs.drop n) := by
  by_cases h : bs = []
  · subst h; simp [Source.events, REv.events]
  · rw [events_one h, events_one (take_ne_nil h hn), ← toks_append, List.take_append_drop]

theorem bufConn_preserves (cap : Nat) (N : Conn σ) : (bufConn cap N.logged).Preserves Buffered where
  read := by
    rintro ⟨⟨i, buf⟩, ans, sent⟩ n r' x hn ⟨h1, h2⟩ he
    simp only at h1 h2
    unfold Conn.readRun at he
    simp only [bufConn, bufRead, Conn.logged] at he
    by_cases hb : buf = []
    · subst hb
      simp only [toks_nil, List.append_nil, if_pos] at h1 he
      by_cases hc : cap ≤ n
      · simp only [if_pos hc] at he
        cases hr : N.readRun i n with
        | none => rw [hr] at he; simp at he
        | some z =>
        obtain ⟨i', z⟩ := z
        obtain ⟨ha, hs⟩ := readRun_answers hr
        rw [hr] at he
        cases z <;>
        · simp only [Option.some.injEq, Prod.mk.injEq] at he
          obtain ⟨rfl, rfl⟩ := he
          exact ⟨by simp [ha, h1], by simp [hs, h2]⟩
      · simp only [if_neg hc] at he
        cases hr : N.readRun i cap with
        | none => rw [hr] at he; simp at he
        | some z =>
        obtain ⟨i', z⟩ := z
        obtain ⟨ha, hs⟩ := readRun_answers hr
        rw [hr] at he
        cases z with
        | ok bs =>
          simp only [Option.some.injEq, Prod.mk.injEq] at he
          obtain ⟨rfl, rfl⟩ := he
          refine ⟨?_, by simp [hs, h2]⟩
          simp only [ha, Source.events_append, h1, List.append_assoc]
          rw [events_fill n hn]
        | err k =>
          simp only [Option.some.injEq, Prod.mk.injEq] at he
          obtain ⟨rfl, rfl⟩ := he
          exact ⟨by simp [ha, h1], by simp [hs, h2]⟩
    · simp only [if_neg hb, Option.some.injEq, Prod.mk.injEq] at he
      obtain ⟨rfl, rfl⟩ := he
      refine ⟨?_, h2⟩
      simp only [h1, Source.events_append, events_one (take_ne_nil hb hn), List.append_assoc, ← toks_append,
        List.take_append_drop]
  write := by
    rintro ⟨⟨i, buf⟩, ans, sent⟩ b r' x ⟨h1, h2⟩ he
    simp only at h1 h2
    simp only [Conn.writeRun, bufConn, Conn.logged] at he
    cases hw : N.write i.net b with
    | none => rw [hw] at he; simp at he
    | some z =>
    obtain ⟨i', z⟩ := z
    rw [hw] at he
    cases z with
    | ok m =>
      simp only [Option.some.injEq, Prod.mk.injEq] at he
      obtain ⟨rfl, rfl⟩ := he
      exact ⟨h1, by simp [h2]⟩
    | error k =>
      simp only [Option.some.injEq, Prod.mk.injEq] at he
      obtain ⟨rfl, rfl⟩ := he
      exact ⟨h1, h2⟩
  flush := by
    rintro ⟨⟨i, buf⟩, ans, sent⟩ r' x ⟨h1, h2⟩ he
    simp only at h1 h2
    simp only [Conn.flushRun, bufConn, Conn.logged] at he
    cases hw : N.flush i.net with
    | none => rw [hw] at he; simp at he
    | some z =>
    obtain ⟨i', z⟩ := z
    rw [hw] at he
    simp only [Option.some.injEq, Prod.mk.injEq] at he
    obtain ⟨rfl, rfl⟩ := he
    exact ⟨h1, h2⟩

theorem bufPoll_preserves (cap : Nat) (N : PollConn σ) : PollKeeps (bufPoll cap N.logged) Buffered := by
  rintro ⟨⟨i, buf⟩, ans, sent⟩ n r' x hn ⟨h1, h2⟩ he
  simp only at h1 h2
  unfold PollConn.pollRun at he
  simp only [bufPoll, bufPollRead, PollConn.logged] at he
  by_cases hb : buf = []
  · subst hb
    simp only [toks_nil, List.append_nil, if_pos] at h1 he
    by_cases hc : cap ≤ n
    · simp only [if_pos hc] at he
      cases hr : N.pollRun i n with
      | mk i' z =>
      obtain ⟨ha, hs⟩ := pollRun_answers hr
      rw [hr] at he
      rcases z with (_ | _) | _ <;>
      · simp only [Prod.mk.injEq] at he
        obtain ⟨rfl, rfl⟩ := he
        exact ⟨by simp [ha, h1], by simp [hs, h2]⟩
    · simp only [if_neg hc] at he
      cases hr : N.pollRun i cap with
      | mk i' z =>
      obtain ⟨ha, hs⟩ := pollRun_answers hr
      rw [hr] at he
      rcases z with (bs | k) | _
      · simp only [Prod.mk.injEq] at he
        obtain ⟨rfl, rfl⟩ := he
        refine ⟨?_, by simp [hs, h2]⟩
        simp only [ha, Source.events_append, h1, List.append_assoc]
        rw [events_fill n hn]
      · simp only [Prod.mk.injEq] at he
        obtain ⟨rfl, rfl⟩ := he
        exact ⟨by simp [ha, h1], by simp [hs, h2]⟩
      · simp only [Prod.mk.injEq] at he
        obtain ⟨rfl, rfl⟩ := he
        exact ⟨by simp [ha, h1], by simp [hs, h2]⟩
  · simp only [if_neg hb, Prod.mk.injEq] at he
    obtain ⟨rfl, rfl⟩ := he
    refine ⟨?_, h2⟩
    simp only [h1, Source.events_append, events_one (take_ne_nil hb hn), List.append_assoc, ← toks_append,
      List.take_append_drop]

theorem Conn.Keeps.logged {N : Conn σ} (h : N.Keeps) : N.logged.Keeps where
  read := by
    intro s n s' bs he
    simp only [Conn.logged, Conn.readRun] at he
    split at he <;> simp only [Option.some.injEq, Prod.mk.injEq, ReadRes.ok.injEq, reduceCtorEq, and_false] at he
    obtain ⟨-, rfl⟩ := he
    exact h.read _ _ _ _ (by assumption)
  write := by
    intro s b s' n he
    simp only [Conn.logged, Conn.writeRun] at he
    split at he <;> simp only [Option.some.injEq, Prod.mk.injEq, Except.ok.injEq, reduceCtorEq, and_false] at he
    obtain ⟨-, rfl⟩ := he
    exact h.write _ _ _ _ (by assumption)

theorem bufConn_keeps (cap : Nat) {N : Conn σ} (h : N.Keeps) : (bufConn cap N).Keeps where
  read := by
    intro s n s' bs he
    simp only [bufConn, bufRead] at he
    split at he
    · split at he
      · split at he <;> simp only [Option.some.injEq, Prod.mk.injEq, reduceCtorEq] at he
        obtain ⟨-, rfl⟩ := he
        exact h.read _ _ _ _ (by assumption)
      · split at he <;> simp only [Option.some.injEq, Prod.mk.injEq, ReadRes.ok.injEq, reduceCtorEq, and_false] at he
        obtain ⟨-, rfl⟩ := he
        simp only [List.length_take]; omega
    · simp only [Option.some.injEq, Prod.mk.injEq, ReadRes.ok.injEq] at he
      obtain ⟨-, rfl⟩ := he
      simp only [List.length_take]; omega
  write := by
    intro s b s' n he
    simp only [bufConn] at he
    split at he <;> simp only [Option.some.injEq, Prod.mk.injEq, reduceCtorEq] at he
    obtain ⟨-, rfl⟩ := he
    exact h.write _ _ _ _ (by assumption)

theorem PollConn.Keeps.logged {N : PollConn σ} (h : N.Keeps) : N.logged.Keeps where
  conn := h.conn.logged
  poll := by
    intro s n s' bs he
    simp only [PollConn.logged, PollConn.pollRun] at he
    split at he <;>
      simp only [Prod.mk.injEq, PollRead.ready.injEq, ReadRes.ok.injEq, reduceCtorEq, and_false] at he
    obtain ⟨-, rfl⟩ := he
    exact h.poll _ _ _ _ (by assumption)

theorem bufPoll_keeps (cap : Nat) {N : PollConn σ} (h : N.Keeps) : (bufPoll cap N).Keeps where
  conn := bufConn_keeps cap h.conn
  poll := by
    intro s n s' bs he
    simp only [bufPoll, bufPollRead] at he
    split at he
    · split at he
      · simp only [Prod.mk.injEq] at he
        obtain ⟨-, hx⟩ := he
        exact h.poll _ _ _ _ (Prod.ext rfl hx)
      · split at he <;>
          simp only [Prod.mk.injEq, PollRead.ready.injEq, ReadRes.ok.injEq, reduceCtorEq, and_false] at he
        obtain ⟨-, rfl⟩ := he
        simp only [List.length_take]; omega
    · simp only [Prod.mk.injEq, PollRead.ready.injEq, ReadRes.ok.injEq] at he
      obtain ⟨-, rfl⟩ := he
      simp only [List.length_take]; omega

theorem syncCalls_keeps {N : Conn σ} {I : ConnRun σ → Prop} (h : N.Preserves I) (cs : List Call) :
    ∀ {p p' : SyncN σ} {xs : List Answer}, I p.run → p.calls fuel N P prof cs = some (p', xs) → I p'.run := by
  induction cs with
  | nil =>
    intro p p' xs hp he
    simp only [SyncN.calls, Option.some.injEq, Prod.mk.injEq] at he
    obtain ⟨rfl, rfl⟩ := he
    exact hp
  | cons c cs ih =>
    intro p p' xs hp he
    cases c with
    | read =>
      have h1 : ∀ {q : SyncN σ} {x : Outcome ProtocolError Payload}, p.read fuel N P prof = some (q, x) → I q.run := by
        intro q x hq
        unfold SyncN.read at hq
        cases hr : syncReadN fuel N P prof p.inbound (p.sess, p.run) with
        | none => rw [hr] at hq; simp at hq
        | some z =>
          obtain ⟨⟨c, s, r⟩, z⟩ := z
          have h1 := syncReadN_keeps h hp hr
          rw [hr] at hq
          simp only [Option.some.injEq, Prod.mk.injEq] at hq
          obtain ⟨rfl, rfl⟩ := hq
          exact h1
      simp only [SyncN.calls] at he
      repeat' split at he
      all_goals grind
    | write q =>
      simp only [SyncN.calls, SyncN.write] at he
      have h1 := @writeN_keeps P prof _ fuel .sync N I h p.outbound
      repeat' split at he
      all_goals grind

theorem asyncCalls_keeps {N : PollConn σ} {I : ConnRun σ → Prop} (h : N.toConn.Preserves I) (hp : PollKeeps N I)
    (cs : List Call) :
    ∀ {p p' : AsyncN σ} {xs : List Answer}, I p.run → p.calls fuel N P prof cs = some (p', xs) → I p'.run := by
  induction cs with
  | nil =>
    intro p p' xs hp he
    simp only [AsyncN.calls, Option.some.injEq, Prod.mk.injEq] at he
    obtain ⟨rfl, rfl⟩ := he
    exact hp
  | cons c cs ih =>
    intro p p' xs hI he
    cases c with
    | read =>
      have h1 : ∀ {q : AsyncN σ} {x : PollResult}, p.pollRead fuel N P prof = some (q, x) → I q.run := by
        intro q x hq
        unfold AsyncN.pollRead at hq
        cases hr : AsyncReaderN.poll fuel N P prof ⟨p.inbound, (p.sess, p.run), p.state⟩ with
        | none => rw [hr] at hq; simp at hq
        | some z =>
          obtain ⟨⟨c, ⟨s, r⟩, st⟩, z⟩ := z
          have h1 := pollN_keeps hp (r := ⟨p.inbound, (p.sess, p.run), p.state⟩) hI hr
          rw [hr] at hq
          simp only [Option.some.injEq, Prod.mk.injEq] at hq
          obtain ⟨rfl, rfl⟩ := hq
          exact h1
      simp only [AsyncN.calls] at he
      repeat' split at he
      all_goals grind
    | write q =>
      simp only [AsyncN.calls, AsyncN.write] at he
      have h1 := @writeN_keeps P prof _ fuel .async N.toConn I h p.outbound
      repeat' split at he
      all_goals grind

/-- A fresh record above a `BufReader` with an empty buffer above a fresh record. -/
def bufStart (net : σ) : ConnRun (BufState (ConnRun σ)) := ⟨⟨⟨net, [], []⟩, []⟩, [], []⟩

/-- The contents of the buffer as the end of a script. -/
def restOf (buf : Bytes) : Source := if buf = [] then [] else [.data buf]

theorem restOf_events (buf : Bytes) : (restOf buf).events = toks buf := by
  unfold restOf
  split
  · rename_i h; subst h; rfl
  · rename_i h; exact events_one h

/-- C68, blocking API: a connection through a `BufReader` of any capacity over any transport.  With the answers that the
transport gave, all of them, as the script, the library without the `BufReader` sends the same, gives the same answers to
the same calls and ends in the same state; and then it has what is in the buffer still to read. -/
theorem C68_buffered_sync (hP : Lawful P) {N : Conn σ} (hN : N.Keeps) (cap : Nat) {magic rng : Bytes} {role : Role}
    {g : Option Bytes} {d : Option (List Bytes)} {net : σ} {r1 : ConnRun (BufState (ConnRun σ))}
    {p p' : SyncN (BufState (ConnRun σ))} {cs : List Call} {xs : List Answer}
    (hnew : SyncN.new fuel (bufConn cap N.logged) P prof magic role rng g d (bufStart net) = some (r1, .ok p))
    (hc : p.calls fuel (bufConn cap N.logged) P prof cs = some (p', xs)) :
    ∃ (ω : List WEv) (φ : List (Option ErrorKind)) (q q' : SyncProtocol),
      SyncProtocol.new P prof magic role rng g d p'.run.net.inner.answers ⟨ω, φ, []⟩ = .ok q ∧
      q.calls P prof cs = (q', xs) ∧
      q'.Same (p'.on (restOf p'.run.net.buf) ⟨[], [], p'.run.net.inner.sent⟩) := by
  have hI0 : Buffered (bufStart net) := ⟨rfl, rfl⟩
  have hI1 : Buffered p.run := by
    unfold SyncN.new at hnew
    have h1 := @handshakeN_keeps P prof _ fuel syncN syncN_keeps _ _ (bufConn_preserves cap N)
    cases hh : handshakeN fuel syncN (bufConn cap N.logged) P prof magic role rng g d (bufStart net) with
    | none => rw [hh] at hnew; simp at hnew
    | some z =>
    obtain ⟨r2, z⟩ := z
    have h2 := h1 hI0 hh
    rw [hh] at hnew
    cases z with
    | panic => simp at hnew
    | err e => simp at hnew
    | ok v =>
      obtain ⟨i, o, s⟩ := v
      simp only [Option.some.injEq, Prod.mk.injEq, Outcome.ok.injEq] at hnew
      obtain ⟨rfl, rfl⟩ := hnew
      exact h2
  obtain ⟨hev, hsent⟩ := syncCalls_keeps (bufConn_preserves cap N) cs hI1 hc
  obtain ⟨ρ, ω, φ, out, h, ha, hs⟩ := sync_script (bufConn_keeps cap hN.logged) hnew hc
  obtain ⟨q0, e1, e2⟩ := h (restOf p'.run.net.buf) [] []
  have ha : p'.run.answers = ρ := by rw [ha]; rfl
  have hs : p'.run.sent = out := by rw [hs]; rfl
  have hst : (ρ ++ restOf p'.run.net.buf).events = p'.run.net.inner.answers.events := by
    rw [Source.events_append, restOf_events, hev, ha]
  obtain ⟨-, hr⟩ := C68_cuts_handshake_sync (prof := prof) (magic := magic) (rng := rng) (role := role) (g := g) (d := d) hP
    hst ⟨ω ++ [], φ ++ [], []⟩
  rw [e1] at hr
  cases hn : SyncProtocol.new P prof magic role rng g d p'.run.net.inner.answers ⟨ω ++ [], φ ++ [], []⟩ with
  | panic => rw [hn] at hr; exact absurd hr (by simp [CutResult])
  | err e => rw [hn] at hr; exact absurd hr (by simp [CutResult])
  | ok q =>
    rw [hn] at hr
    obtain ⟨c1, c2⟩ := C68_cuts_calls_sync (P := P) (prof := prof) cs (a := q0) (b := q) hr
    rw [e2] at c1 c2
    simp only [List.append_nil] at hn
    refine ⟨ω, φ, q, (q.calls P prof cs).1, hn, Prod.ext rfl c1.symm, ?_⟩
    rw [hsent, hs]
    exact ⟨c2.1.symm, c2.2.1.symm, c2.2.2.symm⟩

/-- C68, asynchronous API, through `tokio::io::BufReader`. -/
theorem C68_buffered_async (hP : Lawful P) {N : PollConn σ} (hN : N.Keeps) (cap : Nat) {magic rng : Bytes} {role : Role}
    {g : Option Bytes} {d : Option (List Bytes)} {net : σ} {r1 : ConnRun (BufState (ConnRun σ))}
    {p p' : AsyncN (BufState (ConnRun σ))} {cs : List Call} {xs : List Answer}
    (hnew : AsyncN.new fuel (bufPoll cap N.logged) P prof magic role rng g d (bufStart net) = some (r1, .ok p))
    (hc : p.calls fuel (bufPoll cap N.logged) P prof cs = some (p', xs)) :
    ∃ (ω : List WEv) (φ : List (Option ErrorKind)) (q q' : AsyncProtocol),
      AsyncProtocol.new P prof magic role rng g d p'.run.net.inner.answers ⟨ω, φ, []⟩ = .ok q ∧
      q.calls P prof cs = (q', xs) ∧
      q'.Same (p'.on (restOf p'.run.net.buf) ⟨[], [], p'.run.net.inner.sent⟩) := by
  have hI0 : Buffered (bufStart net) := ⟨rfl, rfl⟩
  have hI1 : Buffered p.run := by
    unfold AsyncN.new at hnew
    have h1 := @handshakeN_keeps P prof _ fuel asyncN asyncN_keeps _ _ (bufConn_preserves cap N.toConn)
    cases hh : handshakeN fuel asyncN (bufPoll cap N.logged).toConn P prof magic role rng g d (bufStart net) with
    | none => rw [hh] at hnew; simp at hnew
    | some z =>
    obtain ⟨r2, z⟩ := z
    have h2 := h1 hI0 hh
    rw [hh] at hnew
    cases z with
    | panic => simp at hnew
    | err e => simp at hnew
    | ok v =>
      obtain ⟨i, o, s⟩ := v
      simp only [Option.some.injEq, Prod.mk.injEq, Outcome.ok.injEq] at hnew
      obtain ⟨rfl, rfl⟩ := hnew
      exact h2
  obtain ⟨hev, hsent⟩ := asyncCalls_keeps (N := bufPoll cap N.logged) (bufConn_preserves cap N.toConn)
    (bufPoll_preserves cap N) cs hI1 hc
  obtain ⟨ρ, ω, φ, out, h, ha, hs⟩ := async_script (bufPoll_keeps cap hN.logged) hnew hc
  obtain ⟨q0, e1, e2⟩ := h (restOf p'.run.net.buf) [] []
  have ha : p'.run.answers = ρ := by rw [ha]; rfl
  have hs : p'.run.sent = out := by rw [hs]; rfl
  have hst : (ρ ++ restOf p'.run.net.buf).events = p'.run.net.inner.answers.events := by
    rw [Source.events_append, restOf_events, hev, ha]
  obtain ⟨-, hr⟩ := C68_cuts_handshake_async (prof := prof) (magic := magic) (rng := rng) (role := role) (g := g) (d := d) hP
    hst ⟨ω ++ [], φ ++ [], []⟩
  rw [e1] at hr
  cases hn : AsyncProtocol.new P prof magic role rng g d p'.run.net.inner.answers ⟨ω ++ [], φ ++ [], []⟩ with
  | panic => rw [hn] at hr; exact absurd hr (by simp [CutResult])
  | err e => rw [hn] at hr; exact absurd hr (by simp [CutResult])
  | ok q =>
    rw [hn] at hr
    obtain ⟨c1, c2⟩ := C68_cuts_calls_async (P := P) (prof := prof) cs (a := q0) (b := q) hr
    rw [e2] at c1 c2
    simp only [List.append_nil] at hn
    refine ⟨ω, φ, q, (q.calls P prof cs).1, hn, Prod.ext rfl c1.symm, ?_⟩
    rw [hsent, hs]
    exact ⟨⟨c2.1.1.symm, c2.1.2.1.symm, c2.1.2.2.symm⟩, c2.2.symm⟩

/-- C68, a handshake that fails through a `BufReader`, or panics: without it, it fails alike. -/
theorem C68_buffered_failure (hP : Lawful P) {N : Conn σ} (hN : N.Keeps) (cap : Nat) {magic rng : Bytes} {role : Role}
    {g : Option Bytes} {d : Option (List Bytes)} {net : σ} {r' : ConnRun (BufState (ConnRun σ))} {e : ProtocolError} :
    (handshakeN fuel syncN (bufConn cap N.logged) P prof magic role rng g d (bufStart net) = some (r', .err e) →
      ∃ ω φ log, handshake syncApi P prof magic role rng g d r'.net.inner.answers ⟨ω, φ, []⟩ =
        (⟨[], [], r'.net.inner.sent⟩, log, .err e)) ∧
    (handshakeN fuel asyncN (bufConn cap N.logged) P prof magic role rng g d (bufStart net) = some (r', .err e) →
      ∃ ω φ log, handshake asyncApi P prof magic role rng g d r'.net.inner.answers ⟨ω, φ, []⟩ =
        (⟨[], [], r'.net.inner.sent⟩, log, .err e)) := by
  have key : ∀ {A : Api} {B : ApiN} (M : ApiMatch A B) (hB : B.Keeps) (V : A.Abs),
      handshakeN fuel B (bufConn cap N.logged) P prof magic role rng g d (bufStart net) = some (r', .err e) →
      ∃ ω φ log, handshake A P prof magic role rng g d r'.net.inner.answers ⟨ω, φ, []⟩ =
        (⟨[], [], r'.net.inner.sent⟩, log, .err e) := by
    intro A B M hB V he
    have hI0 : Buffered (bufStart net) := ⟨rfl, rfl⟩
    obtain ⟨hev, hsent⟩ := handshakeN_keeps hB (bufConn_preserves cap N) hI0 he
    obtain ⟨ρ, ω, φ, out, log, h, ha, hs⟩ := handshakeN_script M (bufConn_keeps cap hN.logged) _ _ _ _ _ _ _ _ he
    have h := h (restOf r'.net.buf) [] [] []
    have ha : r'.answers = ρ := by rw [ha]; rfl
    have hs : r'.sent = out := by rw [hs]; rfl
    have hst : (ρ ++ restOf r'.net.buf).events = r'.net.inner.answers.events := by
      rw [Source.events_append, restOf_events, hev, ha]
    obtain ⟨h1, h2⟩ := handshake_same (prof := prof) V hP magic role rng g d hst ⟨ω, φ, []⟩
    simp only [List.append_nil, List.nil_append] at h
    rw [h] at h1 h2
    refine ⟨ω, φ, (handshake A P prof magic role rng g d r'.net.inner.answers ⟨ω, φ, []⟩).2.1, ?_⟩
    cases hx : handshake A P prof magic role rng g d r'.net.inner.answers ⟨ω, φ, []⟩ with
    | mk w z =>
    obtain ⟨l, z⟩ := z
    rw [hx] at h1 h2
    simp only at h1 h2
    subst h1
    rw [hsent, hs]
    cases z with
    | panic => simp [sessView, withSession] at h2
    | ok v => simp [sessView, withSession] at h2
    | err e' =>
      simp only [sessView, withSession, Outcome.err.injEq] at h2
      subst h2
      rfl
  exact ⟨key syncMatch syncN_keeps syncAbs, key asyncMatch asyncN_keeps asyncAbs⟩

/-! ## Cases -/

/-- The hypotheses hold, through a buffer of 64 bytes, for the reacting peer of C66. -/
example : (match SyncN.new 200 (bufConn 64 samplePeer.toConn.logged) toy .debug (leBytes 4 7) .initiator (leBytes 32 3) none none
      (bufStart ([], 0)) with
    | some (_, .ok p) =>
      (match p.calls 200 (bufConn 64 samplePeer.toConn.logged) toy .debug [.write (.genuine [4, 5, 6]), .read] with
      | some (p', xs) => xs == [.wrote (.ok ()), .read (.ok (.decrypted (0 :: (p'.run.sent.drop 100).take 2)))] &&
          decide (p'.run.answers ≠ p'.run.net.inner.answers)
      | none => false)
    | _ => false) = true := by decide +kernel

example : (match AsyncN.new 200 (bufPoll 64 samplePeer.logged) toy .debug (leBytes 4 7) .initiator (leBytes 32 3) none none
      (bufStart ([], 0)) with
    | some (_, .ok p) =>
      (match p.calls 200 (bufPoll 64 samplePeer.logged) toy .debug [.read, .write (.genuine [4, 5, 6]), .read] with
      | some (p', xs) => xs == [.pending, .wrote (.ok ()), .read (.ok (.decrypted (0 :: (p'.run.sent.drop 100).take 2)))]
      | none => false)
    | _ => false) = true := by decide +kernel

/-- A peer that sends its key, garbage and terminator, and then its version packet and a message in one segment. -/
def eagerReply (inbox : Bytes) : Bytes :=
  if inbox.length < 64 then []
  else
    let key := toy.ellswift (leBytes 32 5)
    let D := Spec.directions toy (leBytes 4 7) key (inbox.take 64) (leBytes 32 5) false
    Spec.peerTranscript toy D.1 key [9, 9, 9] [[1]] (0, []) ++ Spec.packetStream toy D.1.1 D.1.2.1 2 [] [(0, [7, 8, 9])]

def eagerPeer : Conn (Bytes × Nat) where
  read s n :=
    let bs := ((eagerReply s.1).drop s.2).take (if s.2 < 83 then min n (83 - s.2) else n)
    some ((s.1, s.2 + bs.length), .ok bs)
  write s b := some ((s.1 ++ b, s.2), .ok b.length)
  flush s := some (s, .ok ())

theorem eagerPeer_keeps : eagerPeer.Keeps := by
  refine ⟨fun s n s' bs h => ?_, fun s b s' n h => ?_⟩
  · simp only [eagerPeer, Option.some.injEq, Prod.mk.injEq, ReadRes.ok.injEq] at h
    obtain ⟨-, rfl⟩ := h
    simp only [List.length_take]
    split <;> omega
  · simp only [eagerPeer, Option.some.injEq, Prod.mk.injEq, Except.ok.injEq] at h
    obtain ⟨-, rfl⟩ := h
    exact Nat.le_refl _

/-- After the handshake the first message is in the buffer: the session reads it through the `BufReader`.  From the bare
transport, the `BufReader` taken off with `into_inner`, the same session gets an end of file: what is in the buffer is
lost, as the documentation of `BufReader` says. -/
example : (match SyncN.new 200 (bufConn 8192 eagerPeer.logged) toy .debug (leBytes 4 7) .initiator (leBytes 32 3) none none
      (bufStart ([], 0)) with
    | some (_, .ok p) =>
      p.run.net.buf.length == 23 &&
      (match p.calls 200 (bufConn 8192 eagerPeer.logged) toy .debug [.read] with
      | some (p', xs) => xs == [.read (.ok (.decrypted [0, 7, 8, 9]))] && p'.run.net.buf == []
      | none => false) &&
      (match SyncN.calls 200 eagerPeer toy .debug ⟨p.inbound, p.sess, p.outbound, p.run.net.inner⟩ [.read] with
      | some (_, xs) => xs == [.read (.err (.io .unexpectedEof .retryV1))]
      | none => false)
    | _ => false) = true := by decide +kernel

/-- Scripts with the same events and different cuts. -/
example : Source.events [.data [1, 2], .fail .interrupted, .data [3]] =
    Source.events [.data [1], .data [2], .fail .interrupted, .data [3]] := by decide +kernel

end Bip324
