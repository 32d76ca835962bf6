import Verif.Lemmas.BufWriter
import Verif.Props.Accounting
import Verif.Lemmas.ScriptConn

/-!
# Writers that keep bytes back: C84

A writer may keep bytes back until it is flushed, as `BufWriter` does.  Then the `flush` calls of the library (io.rs:345, 357, 571;
futures.rs:179, 191, 489) are what makes the handshake go on and the packets leave.  Here: nothing is read while bytes are
kept back, nothing is kept back when a call has succeeded, and nothing is lost or reordered in between.
-/

namespace Bip324

variable {P : Prims} {prof : Profile} {σ τ : Type} {fuel : Nat}

/-- What has been taken since `r0` has left, behind what was kept back before. -/
def AllLeft (passed held : τ → Bytes) (r0 r : ConnRun τ) : Prop :=
  held r.net = [] ∧ ∃ new, r.sent = r0.sent ++ new ∧ passed r.net = passed r0.net ++ held r0.net ++ new

theorem Since.allLeft {passed held : τ → Bytes} {r0 r : ConnRun τ} (h : Since passed held r0 r) (hn : held r.net = []) :
    AllLeft passed held r0 r := by
  obtain ⟨new, h1, h2, -⟩ := h
  exact ⟨hn, new, h1, by rwa [hn, List.append_nil] at h2⟩

/-! ## The handshake -/

section
variable {W : Conn τ} {passed held : τ → Bytes}

theorem handshakeN_left {A : ApiN} (hK : A.Keeps) (hA : A.Agrees) (h : W.Buffers passed held) (magic rng : Bytes) (role : Role)
    (g : Option Bytes) (d : Option (List Bytes)) (r : ConnRun τ) :
    handshakeN fuel A (W.strict held) P prof magic role rng g d r = handshakeN fuel A W P prof magic role rng g d r ∧
      ∀ r' x, handshakeN fuel A W P prof magic role rng g d r = some (r', x) →
        Since passed held r r' ∧ ∀ v, x = .ok v → held r'.net = [] := by
  refine ⟨?_, fun r' x he => ⟨handshakeN_keeps hK (h.preserves r) (Since.refl r) he, ?_⟩⟩
  · unfold handshakeN
    split
    · rfl
    · rfl
    · exact (handshakeWithInitializedN_agree hA h _ g d r).1
  · rintro v rfl
    unfold handshakeN at he
    split at he
    · simp at he
    · simp at he
    · exact (handshakeWithInitializedN_agree hA h _ g d r).2 _ _ he

/-- C84, blocking handshake, over any writer that keeps bytes back until it is flushed.  It does the same with a peer that says nothing
as long as bytes are kept back: it never waits for an answer to what has not left.  However it ends, what the writer took
has left or is still kept back, in order; if it succeeds, all of it has left. -/
theorem C84_handshake_sync (h : W.Buffers passed held) (magic rng : Bytes) (role : Role) (g : Option Bytes)
    (d : Option (List Bytes)) (r : ConnRun τ) :
    SyncN.new fuel (W.strict held) P prof magic role rng g d r = SyncN.new fuel W P prof magic role rng g d r ∧
      ∀ r' x, SyncN.new fuel W P prof magic role rng g d r = some (r', x) →
        Since passed held r r' ∧ ∀ p, x = .ok p → AllLeft passed held r p.run := by
  obtain ⟨h1, h2⟩ := handshakeN_left (P := P) (prof := prof) (fuel := fuel) syncN_keeps syncN_agrees h magic rng role g d r
  unfold SyncN.new
  rw [h1]
  refine ⟨rfl, fun r' x he => ?_⟩
  split at he
  · simp at he
  all_goals
    rename_i hh
    obtain ⟨a, b⟩ := h2 _ _ hh
    simp only [Option.some.injEq, Prod.mk.injEq] at he
    obtain ⟨rfl, rfl⟩ := he
    refine ⟨a, fun p hp => ?_⟩
  · cases hp
  · cases hp
  · cases hp
    exact a.allLeft (b _ rfl)

/-! ## Calls -/

/-- C84, calls of the blocking API: whatever fails, what the writer took has left or is still kept back, in order. -/
theorem C84_calls_sync (h : W.Buffers passed held) {p p' : SyncN τ} {cs : List Call} {xs : List Answer}
    (he : p.calls fuel W P prof cs = some (p', xs)) : Since passed held p.run p'.run :=
  syncCalls_keeps (h.preserves p.run) cs (Since.refl p.run) he

/-- C84: as long as all writes succeed nothing is ever read while bytes are kept back, and in the end all has left. -/
theorem C84_ok_sync (h : W.Buffers passed held) (cs : List Call) : ∀ {p p' : SyncN τ} {xs : List Answer},
    held p.run.net = [] → p.calls fuel W P prof cs = some (p', xs) → (∀ x ∈ Answer.writes xs, x = .ok ()) →
      p.calls fuel (W.strict held) P prof cs = some (p', xs) ∧ AllLeft passed held p.run p'.run := by
  suffices H : ∀ {p p' : SyncN τ} {xs : List Answer}, held p.run.net = [] → p.calls fuel W P prof cs = some (p', xs) →
      (∀ x ∈ Answer.writes xs, x = .ok ()) → p.calls fuel (W.strict held) P prof cs = some (p', xs) ∧ held p'.run.net = [] by
    intro p p' xs hp he hw
    obtain ⟨h1, h2⟩ := H hp he hw
    exact ⟨h1, (C84_calls_sync h he).allLeft h2⟩
  induction cs with
  | nil =>
    intro p p' xs hp he hw
    simp only [SyncN.calls, Option.some.injEq, Prod.mk.injEq] at he ⊢
    obtain ⟨rfl, rfl⟩ := he
    exact ⟨⟨rfl, rfl⟩, hp⟩
  | cons c cs ih =>
    intro p p' xs hp he hw
    cases c with
    | read =>
      obtain ⟨h1, h2⟩ := syncReadN_agree (P := P) (prof := prof) (fuel := fuel) h p.inbound (s := (p.sess, p.run)) hp
      simp only [SyncN.calls, SyncN.read, h1] at he ⊢
      cases hr : syncReadN fuel W P prof p.inbound (p.sess, p.run) with
      | none => rw [hr] at he; simp at he
      | some z =>
      obtain ⟨⟨c, s, r⟩, x⟩ := z
      rw [hr] at he
      have hj : held r.net = [] := h2 _ _ _ hr
      simp only at he ⊢
      cases hc : SyncN.calls fuel W P prof ⟨c, s, p.outbound, r⟩ cs with
      | none => rw [hc] at he; simp at he
      | some z =>
      obtain ⟨q, ys⟩ := z
      rw [hc] at he
      simp only [Option.some.injEq, Prod.mk.injEq] at he
      obtain ⟨rfl, rfl⟩ := he
      obtain ⟨e1, e2⟩ := ih hj hc (fun y hy => hw y (by simpa [Answer.writes] using hy))
      exact ⟨by rw [e1], e2⟩
    | write q =>
      simp only [SyncN.calls, SyncN.write, writeN_agree] at he ⊢
      cases hr : writeN fuel .sync W P prof p.outbound p.run q with
      | none => rw [hr] at he; simp at he
      | some z =>
      obtain ⟨⟨c, r⟩, x⟩ := z
      rw [hr] at he
      simp only at he ⊢
      cases hc : SyncN.calls fuel W P prof ⟨p.inbound, p.sess, c, r⟩ cs with
      | none => rw [hc] at he; simp at he
      | some z =>
      obtain ⟨q', ys⟩ := z
      rw [hc] at he
      simp only [Option.some.injEq, Prod.mk.injEq] at he
      obtain ⟨rfl, rfl⟩ := he
      obtain rfl : x = .ok () := hw x (by simp [Answer.writes])
      have hj : held r.net = [] := writeN_none h hr
      obtain ⟨e1, e2⟩ := ih hj hc (fun y hy => hw y (by simp [Answer.writes, hy]))
      exact ⟨by rw [e1], e2⟩

end

section
variable {W : PollConn τ} {passed held : τ → Bytes}

/-- C84, asynchronous handshake: likewise. -/
theorem C84_handshake_async (h : W.Buffers passed held) (magic rng : Bytes) (role : Role) (g : Option Bytes)
    (d : Option (List Bytes)) (r : ConnRun τ) :
    AsyncN.new fuel (W.strict held) P prof magic role rng g d r = AsyncN.new fuel W P prof magic role rng g d r ∧
      ∀ r' x, AsyncN.new fuel W P prof magic role rng g d r = some (r', x) →
        Since passed held r r' ∧ ∀ p, x = .ok p → AllLeft passed held r p.run := by
  obtain ⟨h1, h2⟩ := handshakeN_left (P := P) (prof := prof) (fuel := fuel) asyncN_keeps asyncN_agrees h.conn magic rng role g d r
  unfold AsyncN.new
  rw [show (W.strict held).toConn = W.toConn.strict held from rfl, h1]
  refine ⟨rfl, fun r' x he => ?_⟩
  split at he
  · simp at he
  all_goals
    rename_i hh
    obtain ⟨a, b⟩ := h2 _ _ hh
    simp only [Option.some.injEq, Prod.mk.injEq] at he
    obtain ⟨rfl, rfl⟩ := he
    refine ⟨a, fun p hp => ?_⟩
  · cases hp
  · cases hp
  · cases hp
    exact a.allLeft (b _ rfl)

/-- C84, calls of the asynchronous API, with reads that may be pending and cancelled: likewise. -/
theorem C84_calls_async (h : W.Buffers passed held) {p p' : AsyncN τ} {cs : List Call} {xs : List Answer}
    (he : p.calls fuel W P prof cs = some (p', xs)) : Since passed held p.run p'.run :=
  asyncCalls_keeps (h.conn.preserves p.run) (h.pollKeeps p.run) cs (Since.refl p.run) he

theorem C84_ok_async (h : W.Buffers passed held) (cs : List Call) : ∀ {p p' : AsyncN τ} {xs : List Answer},
    held p.run.net = [] → p.calls fuel W P prof cs = some (p', xs) → (∀ x ∈ Answer.writes xs, x = .ok ()) →
      p.calls fuel (W.strict held) P prof cs = some (p', xs) ∧ AllLeft passed held p.run p'.run := by
  suffices H : ∀ {p p' : AsyncN τ} {xs : List Answer}, held p.run.net = [] → p.calls fuel W P prof cs = some (p', xs) →
      (∀ x ∈ Answer.writes xs, x = .ok ()) → p.calls fuel (W.strict held) P prof cs = some (p', xs) ∧ held p'.run.net = [] by
    intro p p' xs hp he hw
    obtain ⟨h1, h2⟩ := H hp he hw
    exact ⟨h1, (C84_calls_async h he).allLeft h2⟩
  induction cs with
  | nil =>
    intro p p' xs hp he hw
    simp only [AsyncN.calls, Option.some.injEq, Prod.mk.injEq] at he ⊢
    obtain ⟨rfl, rfl⟩ := he
    exact ⟨⟨rfl, rfl⟩, hp⟩
  | cons c cs ih =>
    intro p p' xs hp he hw
    cases c with
    | read =>
      obtain ⟨h1, h2⟩ := pollN_agree (P := P) (prof := prof) (fuel := fuel) h (r := ⟨p.inbound, (p.sess, p.run), p.state⟩) hp
      simp only [AsyncN.calls, AsyncN.pollRead, h1] at he ⊢
      cases hr : AsyncReaderN.poll fuel W P prof ⟨p.inbound, (p.sess, p.run), p.state⟩ with
      | none => rw [hr] at he; simp at he
      | some z =>
      obtain ⟨⟨c, ⟨s, r⟩, st⟩, x⟩ := z
      rw [hr] at he
      have hj : held r.net = [] := h2 _ _ hr
      simp only at he ⊢
      cases hc : AsyncN.calls fuel W P prof ⟨c, s, st, p.outbound, r⟩ cs with
      | none => rw [hc] at he; simp at he
      | some z =>
      obtain ⟨q, ys⟩ := z
      rw [hc] at he
      simp only [Option.some.injEq, Prod.mk.injEq] at he
      obtain ⟨rfl, rfl⟩ := he
      obtain ⟨e1, e2⟩ := ih hj hc (fun y hy => hw y (by
        rcases x with _ | x
        · simpa [Answer.writes, PollResult.answer] using hy
        · simpa [Answer.writes, PollResult.answer] using hy))
      exact ⟨by rw [e1], e2⟩
    | write q =>
      simp only [AsyncN.calls, AsyncN.write, show (W.strict held).toConn = W.toConn.strict held from rfl, writeN_agree] at he ⊢
      cases hr : writeN fuel .async W.toConn P prof p.outbound p.run q with
      | none => rw [hr] at he; simp at he
      | some z =>
      obtain ⟨⟨c, r⟩, x⟩ := z
      rw [hr] at he
      simp only at he ⊢
      cases hc : AsyncN.calls fuel W P prof ⟨p.inbound, p.sess, p.state, c, r⟩ cs with
      | none => rw [hc] at he; simp at he
      | some z =>
      obtain ⟨q', ys⟩ := z
      rw [hc] at he
      simp only [Option.some.injEq, Prod.mk.injEq] at he
      obtain ⟨rfl, rfl⟩ := he
      obtain rfl : x = .ok () := hw x (by simp [Answer.writes])
      have hj : held r.net = [] := writeN_none h.conn hr
      obtain ⟨e1, e2⟩ := ih hj hc (fun y hy => hw y (by simp [Answer.writes, hy]))
      exact ⟨by rw [e1], e2⟩

end

/-! ## Connections -/

/-- C84, blocking API: what C66 says about the bytes taken holds of the bytes that have left.  If a connection was made and all writes
succeeded, our handshake and the packets of what the application wrote have left, in order, behind what was kept back before. -/
theorem C84_connection_sync (hP : Lawful P) {W : Conn τ} {passed held : τ → Bytes} (hN : W.Keeps) (h : W.Buffers passed held)
    {magic rng : Bytes} {role : Role} {g : Option Bytes} {d : Option (List Bytes)} (hd : (d.getD []).length < 2 ^ 31)
    {r r1 : ConnRun τ} {p p' : SyncN τ} {cs : List Call} {xs : List Answer}
    (hnew : SyncN.new fuel W P prof magic role rng g d r = some (r1, .ok p)) (hc : p.calls fuel W P prof cs = some (p', xs))
    (hlen : p'.run.got.length < r.got.length + 2 ^ 35) (hk : cs.length < 2 ^ 30)
    (hr : ∀ x ∈ Answer.reads xs, ∃ q, x = .ok q) (hw : ∀ x ∈ Answer.writes xs, x = .ok ()) :
    held p'.run.net = [] ∧ ∃ peerKey,
      let D := Spec.directions P magic (P.ellswift rng) peerKey rng role.initiating
      passed p'.run.net = passed r.net ++ held r.net ++ (Spec.ownTranscript P D.1 (P.ellswift rng) (g.getD []) (d.getD []) ++
        Spec.packetStream P D.1.1 D.1.2.1 ((d.getD []).length + 1) [] ((Call.writes cs).map headed)) := by
  obtain ⟨peerKey, -, -, -, -, -, -, -, -, -, hs⟩ := C66_connection_sync hP hN hd hnew hc hlen hk hr hw
  obtain ⟨hn1, new1, a1, b1⟩ := ((C84_handshake_sync h magic rng role g d r).2 _ _ hnew).2 _ rfl
  obtain ⟨-, hn2, new2, a2, b2⟩ := C84_ok_sync h cs hn1 hc hw
  refine ⟨hn2, peerKey, ?_⟩
  rw [a2, a1, List.append_assoc] at hs
  have hs := List.append_cancel_left hs
  intro D
  rw [b2, b1, hn1, ← hs]
  simp

/-- C84, asynchronous API: likewise. -/
theorem C84_connection_async (hP : Lawful P) {W : PollConn τ} {passed held : τ → Bytes} (hN : W.Keeps)
    (h : W.Buffers passed held) {magic rng : Bytes} {role : Role} {g : Option Bytes} {d : Option (List Bytes)}
    (hd : (d.getD []).length < 2 ^ 31) {r r1 : ConnRun τ} {p p' : AsyncN τ} {cs : List Call} {xs : List Answer}
    (hnew : AsyncN.new fuel W P prof magic role rng g d r = some (r1, .ok p)) (hc : p.calls fuel W P prof cs = some (p', xs))
    (hlen : p'.run.got.length < r.got.length + 2 ^ 35) (hk : cs.length < 2 ^ 30) (hw : ∀ x ∈ Answer.writes xs, x = .ok ()) :
    held p'.run.net = [] ∧ ∃ peerKey,
      let D := Spec.directions P magic (P.ellswift rng) peerKey rng role.initiating
      passed p'.run.net = passed r.net ++ held r.net ++ (Spec.ownTranscript P D.1 (P.ellswift rng) (g.getD []) (d.getD []) ++
        Spec.packetStream P D.1.1 D.1.2.1 ((d.getD []).length + 1) [] ((Call.writes cs).map headed)) := by
  obtain ⟨peerKey, -, -, -, -, -, -, -, -, -, hs⟩ := C66_connection_async hP hN hd hnew hc hlen hk hw
  obtain ⟨hn1, new1, a1, b1⟩ := ((C84_handshake_async h magic rng role g d r).2 _ _ hnew).2 _ rfl
  obtain ⟨-, hn2, new2, a2, b2⟩ := C84_ok_async h cs hn1 hc hw
  refine ⟨hn2, peerKey, ?_⟩
  rw [a2, a1, List.append_assoc] at hs
  have hs := List.append_cancel_left hs
  intro D
  rw [b2, b1, hn1, ← hs]
  simp

/-! ## `BufWriter` -/

section
variable {turns cap : Nat} {std : Bool} {N : Conn σ}

theorem writeRun_sent {r r' : ConnRun σ} {b : Bytes} {x : Except ErrorKind Nat} (h : N.writeRun r b = some (r', x)) :
    r'.sent = r.sent ++ takenBytes b x := by
  unfold Conn.writeRun at h
  split at h
  · simp at h
  all_goals
    simp only [Option.some.injEq, Prod.mk.injEq] at h
    obtain ⟨rfl, rfl⟩ := h
    simp [takenBytes]

theorem readRun_sent {r r' : ConnRun σ} {n : Nat} {x : ReadRes} (h : N.readRun r n = some (r', x)) : r'.sent = r.sent := by
  unfold Conn.readRun at h
  split at h
  · simp at h
  all_goals
    simp only [Option.some.injEq, Prod.mk.injEq] at h
    obtain ⟨rfl, -⟩ := h
    rfl

theorem flushRun_sent {r r' : ConnRun σ} {x : Except ErrorKind Unit} (h : N.flushRun r = some (r', x)) : r'.sent = r.sent := by
  unfold Conn.flushRun at h
  split at h
  · simp at h
  · simp only [Option.some.injEq, Prod.mk.injEq] at h
    obtain ⟨rfl, -⟩ := h
    rfl

theorem flushBuf_left : ∀ {turns : Nat} {s s' : WBuf (ConnRun σ)} {x : Except ErrorKind Unit},
    flushBuf turns std N.writeRun s = some (s', x) → s.inner.sent <+: s'.inner.sent ∧
      s'.inner.sent ++ s'.buf = s.inner.sent ++ s.buf ∧ s'.through = s.through ∧ s'.buf.length ≤ s.buf.length ∧
      (x = .ok () → s'.buf = []) := by
  intro turns
  induction turns with
  | zero => intro s s' x h; simp [flushBuf] at h
  | succ turns ih =>
    intro s s' x h
    unfold flushBuf at h
    split at h
    · rename_i hb
      simp only [Option.some.injEq, Prod.mk.injEq] at h
      obtain ⟨rfl, rfl⟩ := h
      exact ⟨List.prefix_rfl, rfl, rfl, Nat.le_refl _, fun _ => hb⟩
    · rename_i b bs hb
      split at h
      · simp at h
      · rename_i i hw
        have hs := writeRun_sent hw
        simp only [takenBytes, List.take_zero, List.append_nil] at hs
        simp only [Option.some.injEq, Prod.mk.injEq] at h
        obtain ⟨rfl, rfl⟩ := h
        exact ⟨by simp [hs], by simp [hs], rfl, Nat.le_refl _, by simp⟩
      · rename_i i n hw
        have hs := writeRun_sent hw
        simp only [takenBytes] at hs
        obtain ⟨h1, h2, h3, h4, h5⟩ := ih h
        refine ⟨(hs ▸ List.prefix_append _ _ : s.inner.sent <+: i.sent).trans h1, ?_, h3, ?_, h5⟩
        · rw [h2, hs, hb, List.append_assoc, List.take_append_drop]
        · refine Nat.le_trans h4 ?_
          rw [hb, List.length_drop]
          exact Nat.sub_le _ _
      · rename_i i k hw
        have hs := writeRun_sent hw
        simp only [takenBytes, List.append_nil] at hs
        split at h
        · obtain ⟨h1, h2, h3, h4, h5⟩ := ih h
          exact ⟨by rwa [hs] at h1, by rwa [hs] at h2, h3, h4, h5⟩
        · simp only [Option.some.injEq, Prod.mk.injEq] at h
          obtain ⟨rfl, rfl⟩ := h
          exact ⟨by simp [hs], by simp [hs], rfl, Nat.le_refl _, by simp⟩

theorem wbufStore_left {s s' : WBuf (ConnRun σ)} {b : Bytes} {x : Except ErrorKind Nat}
    (hs : s.through = true ∨ cap ≤ b.length → s.buf = []) (h : wbufStore cap std N.writeRun s b = some (s', x)) :
    s.inner.sent <+: s'.inner.sent ∧ s'.inner.sent ++ s'.buf = s.inner.sent ++ s.buf ++
      takenBytes b x := by
  unfold wbufStore at h
  split at h
  · rename_i hc
    have hb := hs hc.symm
    split at h
    · simp at h
    all_goals
      rename_i hw
      have hw' := writeRun_sent hw
      simp only [Option.some.injEq, Prod.mk.injEq] at h
      obtain ⟨rfl, rfl⟩ := h
      simp [hw', hb]
  · simp only [Option.some.injEq, Prod.mk.injEq] at h
    obtain ⟨rfl, rfl⟩ := h
    simp [takenBytes]

/-- C84: `BufWriter` of std and of tokio is such a writer, whatever its capacity and the transport below it. -/
theorem C84_bufwriter (turns cap : Nat) (std : Bool) (N : Conn σ) :
    (bufWriter turns cap std N.logged).Buffers (fun s => s.inner.sent) (fun s => s.buf) where
  read := by
    intro s n s' x h
    simp only [bufWriter, Conn.logged] at h
    split at h
    · simp at h
    · rename_i hr
      simp only [Option.some.injEq, Prod.mk.injEq] at h
      obtain ⟨rfl, -⟩ := h
      exact ⟨readRun_sent hr, rfl⟩
  write := by
    intro s b s' x h
    simp only [bufWriter, Conn.logged, wbufWrite] at h
    split at h
    · split at h
      · simp at h
      · rename_i hf
        obtain ⟨h1, h2, -⟩ := flushBuf_left hf
        simp only [Option.some.injEq, Prod.mk.injEq] at h
        obtain ⟨rfl, rfl⟩ := h
        exact ⟨h1, by simpa [takenBytes] using h2⟩
      · rename_i hf
        obtain ⟨h1, h2, -, -, h5⟩ := flushBuf_left hf
        obtain ⟨h6, h7⟩ := wbufStore_left (fun _ => h5 rfl) h
        exact ⟨h1.trans h6, by rw [h7, h2]⟩
    · rename_i hc
      simp only [not_or, Bool.not_eq_true, Nat.not_lt] at hc
      exact wbufStore_left (fun h => by
        rcases h with h | h
        · rw [hc.2] at h; cases h
        · exact List.eq_nil_of_length_eq_zero (by omega)) h
  flush := by
    intro s s' x h
    simp only [bufWriter, Conn.logged] at h
    split at h
    · simp at h
    · rename_i hf
      obtain ⟨h1, h2, -⟩ := flushBuf_left hf
      simp only [Option.some.injEq, Prod.mk.injEq] at h
      obtain ⟨rfl, rfl⟩ := h
      exact ⟨h1, h2, by simp⟩
    · rename_i hf
      obtain ⟨h1, h2, -, -, h5⟩ := flushBuf_left hf
      split at h
      · simp at h
      · rename_i hr
        have hr' := flushRun_sent hr
        simp only [Option.some.injEq, Prod.mk.injEq] at h
        obtain ⟨rfl, rfl⟩ := h
        exact ⟨by rw [hr']; exact h1, by simp only [hr', h2], fun _ => h5 rfl⟩

theorem C84_bufwriter_poll (turns cap : Nat) (std : Bool) (N : PollConn σ) :
    (bufWriterPoll turns cap std N.logged).Buffers (fun s => s.inner.sent) (fun s => s.buf) where
  conn := C84_bufwriter turns cap std N.toConn
  poll := by
    intro s n s' x h
    simp only [bufWriterPoll, PollConn.logged, PollConn.pollRun, Prod.mk.injEq] at h
    obtain ⟨rfl, -⟩ := h
    refine ⟨?_, rfl⟩
    split <;> rfl

/-- It keeps the contracts of `Read` and `Write` if the transport does. -/
theorem bufWriter_keeps (turns cap : Nat) (std : Bool) (h : N.Keeps) : (bufWriter turns cap std N).Keeps where
  read := by
    intro s n s' bs he
    simp only [bufWriter] at he
    split at he
    · simp at he
    · rename_i hr
      simp only [Option.some.injEq, Prod.mk.injEq] at he
      obtain ⟨-, rfl⟩ := he
      exact h.read _ _ _ _ hr
  write := by
    intro s b s' n he
    have hst : ∀ s, wbufStore cap std N.write s b = some (s', .ok n) → n ≤ b.length := by
      intro s he
      unfold wbufStore at he
      split at he
      · split at he
        · simp at he
        · rename_i hw
          simp only [Option.some.injEq, Prod.mk.injEq, Except.ok.injEq] at he
          obtain ⟨-, rfl⟩ := he
          exact h.write _ _ _ _ hw
        · simp at he
      · simp only [Option.some.injEq, Prod.mk.injEq, Except.ok.injEq] at he
        omega
    simp only [bufWriter, wbufWrite] at he
    split at he
    · split at he
      · simp at he
      · simp at he
      · exact hst _ he
    · exact hst _ he

theorem bufWriterPoll_keeps {N : PollConn σ} (turns cap : Nat) (std : Bool) (h : N.Keeps) :
    (bufWriterPoll turns cap std N).Keeps where
  conn := bufWriter_keeps turns cap std h.conn
  poll := by
    intro s n s' bs he
    simp only [bufWriterPoll, Prod.mk.injEq] at he
    exact h.poll _ _ _ _ (Prod.ext rfl he.2)

end

/-! ## Transient failures -/

section
variable {turns cap : Nat} {std : Bool} {N : Conn σ}

/-- A message for which there is room is taken at once, whatever the transport does; only the flush can fail. -/
theorem send_fits {retry : Bool} {r r' : ConnRun (WBuf (ConnRun σ))} {b : Bytes} {x : Except ErrorKind Unit}
    (ht : r.net.through = false) (hb : b ≠ []) (hcap : b.length < cap) (hroom : r.net.buf.length + b.length ≤ cap)
    (he : (bufWriter turns cap std N.logged).send fuel retry r b = some (r', x)) :
    r'.sent = r.sent ++ b ∧ r'.net.through = false ∧ r'.net.buf.length ≤ r.net.buf.length + b.length := by
  have hw : (bufWriter turns cap std N.logged).writeRun r b =
      some (⟨⟨r.net.inner, r.net.buf ++ b, false⟩, r.answers, r.sent ++ b⟩, .ok b.length) := by
    unfold Conn.writeRun
    have : (bufWriter turns cap std N.logged).write r.net b = some (⟨r.net.inner, r.net.buf ++ b, false⟩, .ok b.length) := by
      simp only [bufWriter, wbufWrite]
      rw [if_neg (by rw [ht]; simp; omega), wbufStore, if_neg (by rw [ht]; simp; omega), ht]
    rw [this]
    simp
  have hall : ∀ y, (bufWriter turns cap std N.logged).writeAll fuel retry r b = some y →
      y = (⟨⟨r.net.inner, r.net.buf ++ b, false⟩, r.answers, r.sent ++ b⟩, .ok ()) := by
    intro y hy
    cases fuel with
    | zero => simp [Conn.writeAll] at hy
    | succ fuel =>
    obtain ⟨b0, bs, rfl⟩ := List.exists_cons_of_ne_nil hb
    unfold Conn.writeAll at hy
    simp only [hw, List.length_cons] at hy
    rw [List.drop_eq_nil_of_le (by simp)] at hy
    cases fuel with
    | zero => simp [Conn.writeAll] at hy
    | succ fuel =>
      simp only [Conn.writeAll, Option.some.injEq] at hy
      exact hy.symm
  unfold Conn.send at he
  split at he
  · simp at he
  · rename_i h1
    have := hall _ h1
    simp at this
  · rename_i h1
    have := hall _ h1
    simp only [Prod.mk.injEq, and_true] at this
    subst this
    unfold Conn.flushRun at he
    split at he
    · simp at he
    · rename_i s y hf
      simp only [Option.some.injEq, Prod.mk.injEq] at he
      obtain ⟨rfl, -⟩ := he
      simp only [bufWriter, Conn.logged] at hf
      refine ⟨rfl, ?_⟩
      split at hf
      · simp at hf
      · rename_i hfl
        obtain ⟨-, -, h3, h4, -⟩ := flushBuf_left hfl
        simp only [Option.some.injEq, Prod.mk.injEq] at hf
        obtain ⟨rfl, -⟩ := hf
        exact ⟨h3, by simpa using h4⟩
      · rename_i hfl
        obtain ⟨-, -, h3, h4, -⟩ := flushBuf_left hfl
        split at hf
        · simp at hf
        · simp only [Option.some.injEq, Prod.mk.injEq] at hf
          obtain ⟨rfl, -⟩ := hf
          exact ⟨h3, by simpa using h4⟩

/-- `write` of either API for a packet for which there is room. -/
theorem writeN_fits (hP : Lawful P) {f : Flavour} {kL kP : Bytes} {n : Nat} {c c' : OutboundCipher}
    (hat : OutboundCipher.At P kL kP n c) (hn : n + 1 < 2 ^ 32) {r r' : ConnRun (WBuf (ConnRun σ))} {q : Payload} {v}
    (hv : q.view = some v) {x : Outcome ProtocolError Unit} (ht : r.net.through = false) (hcap : q.size + 20 < cap)
    (hroom : r.net.buf.length + (q.size + 20) ≤ cap)
    (he : writeN fuel f (bufWriter turns cap std N.logged) P prof c r q = some ((c', r'), x)) :
    OutboundCipher.At P kL kP (n + 1) c' ∧ r'.sent = r.sent ++ Spec.packetStream P kL kP n [] [headed q] ∧
      r'.net.through = false ∧ r'.net.buf.length ≤ r.net.buf.length + (q.size + 20) := by
  obtain ⟨t, cs⟩ := v
  have hvv := Payload.view_some.1 hv
  obtain ⟨o, hat', he'⟩ := hat.encryptToVec (prof := prof) hP hn cs t none
  have hlen := packet_length hP he'
  have hsz : q.size = cs.length := by rw [Payload.size, hvv.2]; rfl
  have hfor : encryptFor f P prof c cs t = (o, .ok (Spec.packet P kL kP n (t == .decoy) [] cs)) := by
    cases f with
    | sync => exact he'
    | async =>
      unfold encryptFor
      simp only
      rw [encrypt_to_vec, he']
      rfl
  have hpkt : Spec.packetStream P kL kP n [] [headed q] = Spec.packet P kL kP n (t == .decoy) [] cs := by
    rw [headed_of_view hv, Spec.packet_raw]
    simp [Spec.packetStream]
  unfold writeN at he
  rw [hvv.1, hvv.2] at he
  simp only [hfor] at he
  rw [hpkt]
  simp only [Option.getD_none] at hlen
  split at he
  · simp at he
  all_goals
    rename_i hs
    simp only [Option.some.injEq, Prod.mk.injEq] at he
    obtain ⟨⟨rfl, rfl⟩, -⟩ := he
    obtain ⟨a, b, c⟩ := send_fits ht (List.ne_nil_of_length_pos (by omega)) (by omega) (by omega) hs
    exact ⟨hat', a, b, by omega⟩

/-- The writing side is the same. -/
def SameWriteSide (r0 r : ConnRun (WBuf (ConnRun σ))) : Prop :=
  r.sent = r0.sent ∧ r.net.buf = r0.net.buf ∧ r.net.through = r0.net.through

theorem bufWriterPoll_read_keeps {N : PollConn σ} {r0 r r' : ConnRun (WBuf (ConnRun σ))} {n : Nat} {x : PollRead}
    (h : SameWriteSide r0 r) (he : (bufWriterPoll turns cap std N.logged).pollRun r n = (r', x)) : SameWriteSide r0 r' := by
  unfold PollConn.pollRun at he
  simp only [bufWriterPoll] at he
  split at he
  all_goals
    rename_i hm
    simp only [Prod.mk.injEq] at he hm
    obtain ⟨rfl, -⟩ := he
    obtain ⟨rfl, -⟩ := hm
    exact h

theorem bufWriter_read_keeps {r0 r r' : ConnRun (WBuf (ConnRun σ))} {n : Nat} {x : ReadRes}
    (h : SameWriteSide r0 r) (he : (bufWriter turns cap std N.logged).readRun r n = some (r', x)) : SameWriteSide r0 r' := by
  unfold Conn.readRun at he
  simp only [bufWriter] at he
  cases h1 : N.logged.read r.net.inner n with
  | none => rw [h1] at he; simp at he
  | some z =>
    obtain ⟨i, y⟩ := z
    rw [h1] at he
    cases y <;> simp only [Option.some.injEq, Prod.mk.injEq] at he <;> obtain ⟨rfl, -⟩ := he <;> exact h

theorem syncReadN_readKeeps {τ : Type} {W : Conn τ} {I : ConnRun τ → Prop}
    (hk : ReadKeeps (syncN.read W.readRun) (fun s => I s.2)) {c c' : InboundCipher}
    {s s' : syncN.Sess × ConnRun τ} {x : Outcome ProtocolError Payload} (hs : I s.2)
    (he : syncReadN fuel W P prof c s = some ((c', s'), x)) : I s'.2 := by
  unfold syncReadN at he
  have h1 := @readExactN_keeps _ _ _ hk true fuel
  repeat' split at he
  all_goals grind

theorem transient_sync (hP : Lawful P) {kL kP : Bytes} (cs : List Call) : ∀ {n : Nat}
    {p p' : SyncN (WBuf (ConnRun σ))} {xs : List Answer}, OutboundCipher.At P kL kP n p.outbound →
    n + (Call.writes cs).length < 2 ^ 32 → (∀ q ∈ Call.writes cs, ∃ v, q.view = some v) → p.run.net.through = false →
    p.run.net.buf.length + wireLength ((Call.writes cs).map Payload.size) < cap →
    p.calls fuel (bufWriter turns cap std N.logged) P prof cs = some (p', xs) →
    p'.run.sent = p.run.sent ++ Spec.packetStream P kL kP n [] ((Call.writes cs).map headed) := by
  induction cs with
  | nil =>
    intro n p p' xs _ _ _ _ _ he
    simp only [SyncN.calls, Option.some.injEq, Prod.mk.injEq] at he
    obtain ⟨rfl, rfl⟩ := he
    simp [Call.writes, Spec.packetStream]
  | cons c cs ih =>
    intro n p p' xs hat hn hv ht hroom he
    cases c with
    | read =>
      simp only [SyncN.calls, SyncN.read] at he
      cases hr : syncReadN fuel (bufWriter turns cap std N.logged) P prof p.inbound (p.sess, p.run) with
      | none => rw [hr] at he; simp at he
      | some z =>
      obtain ⟨⟨c, s, r⟩, x⟩ := z
      rw [hr] at he
      simp only at he
      have hk : SameWriteSide p.run r := by
        have hk : ReadKeeps (syncN.read (bufWriter turns cap std N.logged).readRun) (fun s => SameWriteSide p.run s.2) :=
          syncN_keeps (J := SameWriteSide p.run) (fun s n s' x _ => bufWriter_read_keeps)
        exact syncReadN_readKeeps hk (s := (p.sess, p.run)) ⟨rfl, rfl, rfl⟩ hr
      cases hc : SyncN.calls fuel (bufWriter turns cap std N.logged) P prof ⟨c, s, p.outbound, r⟩ cs with
      | none => rw [hc] at he; simp at he
      | some z =>
      obtain ⟨q, ys⟩ := z
      rw [hc] at he
      simp only [Option.some.injEq, Prod.mk.injEq] at he
      obtain ⟨rfl, rfl⟩ := he
      have := ih (p := ⟨c, s, p.outbound, r⟩) hat hn hv (hk.2.2.trans ht) (by simp only [hk.2.1]; exact hroom) hc
      rw [this, hk.1]
      rfl
    | write q =>
      simp only [SyncN.calls, SyncN.write] at he
      cases hr : writeN fuel .sync (bufWriter turns cap std N.logged) P prof p.outbound p.run q with
      | none => rw [hr] at he; simp at he
      | some z =>
      obtain ⟨⟨c, r⟩, x⟩ := z
      rw [hr] at he
      simp only at he
      cases hc : SyncN.calls fuel (bufWriter turns cap std N.logged) P prof ⟨p.inbound, p.sess, c, r⟩ cs with
      | none => rw [hc] at he; simp at he
      | some z =>
      obtain ⟨q', ys⟩ := z
      rw [hc] at he
      simp only [Option.some.injEq, Prod.mk.injEq] at he
      obtain ⟨rfl, rfl⟩ := he
      simp only [Call.writes, List.length_cons, List.map_cons, List.mem_cons, forall_eq_or_imp] at hn hv hroom ⊢
      rw [← List.singleton_append, wireLength_append] at hroom
      simp only [wireLength, List.sum_cons, List.sum_nil, List.length_cons, List.length_nil, Nat.zero_add, Nat.add_zero,
        Nat.mul_one] at hroom
      obtain ⟨v, hv1⟩ := hv.1
      obtain ⟨a, b, c', d⟩ := writeN_fits hP hat (by omega) hv1 ht (by omega) (by omega) hr
      have := ih (p := ⟨p.inbound, p.sess, c, r⟩) a (by omega) hv.2 c' (by simp only [wireLength]; omega) hc
      rw [this]
      simp only [b, List.append_assoc, packetStream_append]
      rfl

end

section
variable {turns cap : Nat} {std : Bool} {N : PollConn σ}

theorem transient_async (hP : Lawful P) {kL kP : Bytes} (cs : List Call) : ∀ {n : Nat}
    {p p' : AsyncN (WBuf (ConnRun σ))} {xs : List Answer}, OutboundCipher.At P kL kP n p.outbound →
    n + (Call.writes cs).length < 2 ^ 32 → (∀ q ∈ Call.writes cs, ∃ v, q.view = some v) → p.run.net.through = false →
    p.run.net.buf.length + wireLength ((Call.writes cs).map Payload.size) < cap →
    p.calls fuel (bufWriterPoll turns cap std N.logged) P prof cs = some (p', xs) →
    p'.run.sent = p.run.sent ++ Spec.packetStream P kL kP n [] ((Call.writes cs).map headed) := by
  induction cs with
  | nil =>
    intro n p p' xs _ _ _ _ _ he
    simp only [AsyncN.calls, Option.some.injEq, Prod.mk.injEq] at he
    obtain ⟨rfl, rfl⟩ := he
    simp [Call.writes, Spec.packetStream]
  | cons c cs ih =>
    intro n p p' xs hat hn hv ht hroom he
    cases c with
    | read =>
      simp only [AsyncN.calls, AsyncN.pollRead] at he
      cases hr : AsyncReaderN.poll fuel (bufWriterPoll turns cap std N.logged) P prof ⟨p.inbound, (p.sess, p.run), p.state⟩ with
      | none => rw [hr] at he; simp at he
      | some z =>
      obtain ⟨⟨c, ⟨s, r⟩, st⟩, x⟩ := z
      rw [hr] at he
      simp only at he
      have hk : SameWriteSide p.run r :=
        pollN_keeps (N := bufWriterPoll turns cap std N.logged) (I := SameWriteSide p.run) (fun _ => bufWriterPoll_read_keeps)
          (r := ⟨p.inbound, (p.sess, p.run), p.state⟩) ⟨rfl, rfl, rfl⟩ hr
      cases hc : AsyncN.calls fuel (bufWriterPoll turns cap std N.logged) P prof ⟨c, s, st, p.outbound, r⟩ cs with
      | none => rw [hc] at he; simp at he
      | some z =>
      obtain ⟨q, ys⟩ := z
      rw [hc] at he
      simp only [Option.some.injEq, Prod.mk.injEq] at he
      obtain ⟨rfl, rfl⟩ := he
      have := ih (p := ⟨c, s, st, p.outbound, r⟩) hat hn hv (hk.2.2.trans ht) (by simp only [hk.2.1]; exact hroom) hc
      rw [this, hk.1]
      rfl
    | write q =>
      simp only [AsyncN.calls, AsyncN.write] at he
      cases hr : writeN fuel .async (bufWriter turns cap std N.toConn.logged) P prof p.outbound p.run q with
      | none => rw [show (bufWriterPoll turns cap std N.logged).toConn = bufWriter turns cap std N.toConn.logged from rfl] at he; rw [hr] at he; simp at he
      | some z =>
      obtain ⟨⟨c, r⟩, x⟩ := z
      rw [show (bufWriterPoll turns cap std N.logged).toConn = bufWriter turns cap std N.toConn.logged from rfl] at he; rw [hr] at he
      simp only at he
      cases hc : AsyncN.calls fuel (bufWriterPoll turns cap std N.logged) P prof ⟨p.inbound, p.sess, p.state, c, r⟩ cs with
      | none => rw [hc] at he; simp at he
      | some z =>
      obtain ⟨q', ys⟩ := z
      rw [hc] at he
      simp only [Option.some.injEq, Prod.mk.injEq] at he
      obtain ⟨rfl, rfl⟩ := he
      simp only [Call.writes, List.length_cons, List.map_cons, List.mem_cons, forall_eq_or_imp] at hn hv hroom ⊢
      rw [← List.singleton_append, wireLength_append] at hroom
      simp only [wireLength, List.sum_cons, List.sum_nil, List.length_cons, List.length_nil, Nat.zero_add, Nat.add_zero,
        Nat.mul_one] at hroom
      obtain ⟨v, hv1⟩ := hv.1
      obtain ⟨a, b, c', d⟩ := writeN_fits hP hat (by omega) hv1 ht (by omega) (by omega) hr
      have := ih (p := ⟨p.inbound, p.sess, p.state, c, r⟩) a (by omega) hv.2 c' (by simp only [wireLength]; omega) hc
      rw [this]
      simp only [b, List.append_assoc, packetStream_append]
      rfl

end

/-- After a write that succeeded nothing is kept back, whatever happened before and whatever is read after it. -/
theorem last_sync {W : Conn τ} {passed held : τ → Bytes} (h : W.Buffers passed held) (cs : List Call) :
    ∀ {p p' : SyncN τ} {xs : List Answer}, p.calls fuel W P prof cs = some (p', xs) →
      (Answer.writes xs = [] → held p'.run.net = held p.run.net) ∧
        ((Answer.writes xs).getLast? = some (.ok ()) → held p'.run.net = []) := by
  induction cs with
  | nil =>
    intro p p' xs he
    simp only [SyncN.calls, Option.some.injEq, Prod.mk.injEq] at he
    obtain ⟨rfl, rfl⟩ := he
    simp [Answer.writes]
  | cons c cs ih =>
    intro p p' xs he
    cases c with
    | read =>
      have hk : ∀ {q x}, SyncN.read fuel W P prof p = some (q, x) → held q.run.net = held p.run.net := by
        intro q x hr
        unfold SyncN.read at hr
        cases h1 : syncReadN fuel W P prof p.inbound (p.sess, p.run) with
        | none => rw [h1] at hr; simp at hr
        | some z =>
          obtain ⟨⟨c, s, r⟩, x⟩ := z
          rw [h1] at hr
          simp only [Option.some.injEq, Prod.mk.injEq] at hr
          obtain ⟨rfl, -⟩ := hr
          exact syncReadN_readKeeps (I := fun r => held r.net = held p.run.net)
            (syncN_keeps (rd := W.readRun) (J := fun r => held r.net = held p.run.net) (fun s n s' x _ hs hx => by
              unfold Conn.readRun at hx
              split at hx
              · simp at hx
              all_goals
                rename_i hm
                simp only [Option.some.injEq, Prod.mk.injEq] at hx
                obtain ⟨rfl, -⟩ := hx
                exact (h.read hm).2.trans hs)) (s := (p.sess, p.run)) rfl h1
      simp only [SyncN.calls] at he
      cases hr : SyncN.read fuel W P prof p with
      | none => rw [hr] at he; simp at he
      | some z =>
      obtain ⟨q, x⟩ := z
      rw [hr] at he
      simp only at he
      cases hc : SyncN.calls fuel W P prof q cs with
      | none => rw [hc] at he; simp at he
      | some z =>
      obtain ⟨q', ys⟩ := z
      rw [hc] at he
      simp only [Option.some.injEq, Prod.mk.injEq] at he
      obtain ⟨rfl, rfl⟩ := he
      obtain ⟨i1, i2⟩ := ih hc
      simp only [Answer.writes]
      exact ⟨fun e => (i1 e).trans (hk hr), i2⟩
    | write q =>
      simp only [SyncN.calls, SyncN.write] at he
      cases hr : writeN fuel .sync W P prof p.outbound p.run q with
      | none => rw [hr] at he; simp at he
      | some z =>
      obtain ⟨⟨c, r⟩, x⟩ := z
      rw [hr] at he
      simp only at he
      cases hc : SyncN.calls fuel W P prof ⟨p.inbound, p.sess, c, r⟩ cs with
      | none => rw [hc] at he; simp at he
      | some z =>
      obtain ⟨q', ys⟩ := z
      rw [hc] at he
      simp only [Option.some.injEq, Prod.mk.injEq] at he
      obtain ⟨rfl, rfl⟩ := he
      obtain ⟨i1, i2⟩ := ih hc
      simp only [Answer.writes]
      refine ⟨by simp, fun hl => ?_⟩
      cases hy : Answer.writes ys with
      | nil =>
        rw [hy] at hl
        simp only [List.getLast?_singleton, Option.some.injEq] at hl
        subst hl
        exact (i1 hy).trans (writeN_none h hr)
      | cons y zs =>
        rw [hy, List.getLast?_cons_cons, ← hy] at hl
        exact i2 hl

/-- After a write that succeeded nothing is kept back, whatever happened before and whatever is read after it. -/
theorem last_async {W : PollConn τ} {passed held : τ → Bytes} (h : W.Buffers passed held) (cs : List Call) :
    ∀ {p p' : AsyncN τ} {xs : List Answer}, p.calls fuel W P prof cs = some (p', xs) →
      (Answer.writes xs = [] → held p'.run.net = held p.run.net) ∧
        ((Answer.writes xs).getLast? = some (.ok ()) → held p'.run.net = []) := by
  induction cs with
  | nil =>
    intro p p' xs he
    simp only [AsyncN.calls, Option.some.injEq, Prod.mk.injEq] at he
    obtain ⟨rfl, rfl⟩ := he
    simp [Answer.writes]
  | cons c cs ih =>
    intro p p' xs he
    cases c with
    | read =>
      have hk : ∀ {q x}, AsyncN.pollRead fuel W P prof p = some (q, x) → held q.run.net = held p.run.net := by
        intro q x hr
        unfold AsyncN.pollRead at hr
        cases h1 : AsyncReaderN.poll fuel W P prof ⟨p.inbound, (p.sess, p.run), p.state⟩ with
        | none => rw [h1] at hr; simp at hr
        | some z =>
          obtain ⟨⟨c, ⟨s, r⟩, st⟩, x⟩ := z
          rw [h1] at hr
          simp only [Option.some.injEq, Prod.mk.injEq] at hr
          obtain ⟨rfl, -⟩ := hr
          refine pollN_keeps (I := fun r => held r.net = held p.run.net) (fun {r n r' x} _ hs hx => ?_)
            (r := ⟨p.inbound, (p.sess, p.run), p.state⟩) rfl h1
          unfold PollConn.pollRun at hx
          split at hx
          all_goals
            rename_i hm
            simp only [Prod.mk.injEq] at hx
            obtain ⟨rfl, -⟩ := hx
            exact (h.poll hm).2.trans hs
      simp only [AsyncN.calls] at he
      cases hr : AsyncN.pollRead fuel W P prof p with
      | none => rw [hr] at he; simp at he
      | some z =>
      obtain ⟨q, x⟩ := z
      rw [hr] at he
      simp only at he
      cases hc : AsyncN.calls fuel W P prof q cs with
      | none => rw [hc] at he; simp at he
      | some z =>
      obtain ⟨q', ys⟩ := z
      rw [hc] at he
      simp only [Option.some.injEq, Prod.mk.injEq] at he
      obtain ⟨rfl, rfl⟩ := he
      obtain ⟨i1, i2⟩ := ih hc
      cases x <;> exact ⟨fun e => (i1 e).trans (hk hr), i2⟩
    | write q =>
      simp only [AsyncN.calls, AsyncN.write] at he
      cases hr : writeN fuel .async W.toConn P prof p.outbound p.run q with
      | none => rw [hr] at he; simp at he
      | some z =>
      obtain ⟨⟨c, r⟩, x⟩ := z
      rw [hr] at he
      simp only at he
      cases hc : AsyncN.calls fuel W P prof ⟨p.inbound, p.sess, p.state, c, r⟩ cs with
      | none => rw [hc] at he; simp at he
      | some z =>
      obtain ⟨q', ys⟩ := z
      rw [hc] at he
      simp only [Option.some.injEq, Prod.mk.injEq] at he
      obtain ⟨rfl, rfl⟩ := he
      obtain ⟨i1, i2⟩ := ih hc
      simp only [Answer.writes]
      refine ⟨by simp, fun hl => ?_⟩
      cases hy : Answer.writes ys with
      | nil =>
        rw [hy] at hl
        simp only [List.getLast?_singleton, Option.some.injEq] at hl
        subst hl
        exact (i1 hy).trans (writeN_none h.conn hr)
      | cons y zs =>
        rw [hy, List.getLast?_cons_cons, ← hy] at hl
        exact i2 hl

/-- C84, failures that pass: if the packets of the writes fit into the buffer together, then what has left plus what is kept
back is all the packets in order, however often the transport failed in between and whatever the writes returned; and after
a write that succeeded nothing is kept back.  Compare `C35_counterexample`: without the buffer one failure makes all later
packets unreadable.  The reads between may do anything. -/
theorem C84_transient_sync (hP : Lawful P) {turns cap : Nat} {std : Bool} {N : Conn σ} {kL kP : Bytes} {cs : List Call} {n : Nat}
    {p p' : SyncN (WBuf (ConnRun σ))} {xs : List Answer} (hat : OutboundCipher.At P kL kP n p.outbound)
    (hn : n + (Call.writes cs).length < 2 ^ 32) (hv : ∀ q ∈ Call.writes cs, ∃ v, q.view = some v)
    (ht : p.run.net.through = false) (hroom : p.run.net.buf.length + wireLength ((Call.writes cs).map Payload.size) < cap)
    (he : p.calls fuel (bufWriter turns cap std N.logged) P prof cs = some (p', xs)) :
    p'.run.net.inner.sent ++ p'.run.net.buf = p.run.net.inner.sent ++ p.run.net.buf ++
        Spec.packetStream P kL kP n [] ((Call.writes cs).map headed) ∧
      ((Answer.writes xs).getLast? = some (.ok ()) → p'.run.net.buf = []) := by
  have hB := C84_bufwriter turns cap std N
  refine ⟨?_, (last_sync hB cs he).2⟩
  obtain ⟨new, h1, h2, -⟩ := C84_calls_sync hB he
  rw [transient_sync hP cs hat hn hv ht hroom he, List.append_cancel_left_eq] at h1
  rw [h2, ← h1]

/-- The same, asynchronous API. -/
theorem C84_transient_async (hP : Lawful P) {turns cap : Nat} {std : Bool} {N : PollConn σ} {kL kP : Bytes} {cs : List Call} {n : Nat}
    {p p' : AsyncN (WBuf (ConnRun σ))} {xs : List Answer} (hat : OutboundCipher.At P kL kP n p.outbound)
    (hn : n + (Call.writes cs).length < 2 ^ 32) (hv : ∀ q ∈ Call.writes cs, ∃ v, q.view = some v)
    (ht : p.run.net.through = false) (hroom : p.run.net.buf.length + wireLength ((Call.writes cs).map Payload.size) < cap)
    (he : p.calls fuel (bufWriterPoll turns cap std N.logged) P prof cs = some (p', xs)) :
    p'.run.net.inner.sent ++ p'.run.net.buf = p.run.net.inner.sent ++ p.run.net.buf ++
        Spec.packetStream P kL kP n [] ((Call.writes cs).map headed) ∧
      ((Answer.writes xs).getLast? = some (.ok ()) → p'.run.net.buf = []) := by
  have hB := C84_bufwriter_poll turns cap std N
  refine ⟨?_, (last_async hB cs he).2⟩
  obtain ⟨new, h1, h2, -⟩ := C84_calls_async hB he
  rw [transient_async hP cs hat hn hv ht hroom he, List.append_cancel_left_eq] at h1
  rw [h2, ← h1]

/-- `SyncN` with the writing half of `C35_counterexample` behind a `BufWriter`. -/
def bufSample (script : List WEv) : SyncN (WBuf (ConnRun (Source × Sink))) :=
  ⟨sampleIn, ([], false), sampleOut, ⟨⟨⟨([], ⟨script, [], []⟩), [], []⟩, [], false⟩, [], []⟩⟩

/-- What a peer reads of what has left after the calls. -/
def bufSampleSeen (cap : Nat) (script : List WEv) (cs : List Call) : Option (List (Outcome ProtocolError Unit) × List (Option (PacketType × Bytes))) :=
  match (bufSample script).calls 50 (bufWriter 50 cap true scriptConn.toConn.logged) toy .debug cs with
  | none => none
  | some (p, xs) => some (Answer.writes xs,
      (SyncReader.readMany toy .debug ⟨sampleIn, ⟨[], false, [.data p.run.net.inner.sent]⟩⟩ (Call.writes cs).length).2.map seen)

/-- The failures of `C35_counterexample`, repaired by the buffer (`C84_transient_sync`). -/
example : bufSampleSeen 64 [.accept 7, .fail .wouldBlock] [.write (.genuine [1, 2, 3]), .write (.genuine [4])] =
    some ([.err (.io .wouldBlock .abort), .ok ()], [some (.genuine, [1, 2, 3]), some (.genuine, [4])]) ∧
  bufSampleSeen 64 [.fail .timedOut] [.write (.genuine [1, 2, 3]), .write (.genuine [4])] =
    some ([.err (.io .timedOut .abort), .ok ()], [some (.genuine, [1, 2, 3]), some (.genuine, [4])]) := by
  constructor <;> decide +kernel

/-- C84: the packets must fit: with a buffer of 32 bytes the second write fails before its packet is taken, and nothing that
is sent after it can be read. -/
theorem C84_counterexample :
    bufSampleSeen 32 [.fail .timedOut, .fail .timedOut] [.write (.genuine [1, 2, 3]), .write (.genuine [4]), .write (.genuine [5])] =
      some ([.err (.io .timedOut .abort), .err (.io .timedOut .abort), .ok ()],
        [some (.genuine, [1, 2, 3]), none, none]) := by
  decide +kernel

/-- The hypotheses of `C84_transient_sync` for the first example. -/
example : (bufSample [.accept 7, .fail .wouldBlock]).run.net.through = false ∧
    ([] : Bytes).length + wireLength ([.genuine [1, 2, 3], .genuine [4]].map Payload.size) < 64 := by
  decide +kernel

/-- A whole connection over a `BufWriter` to a peer that answers what it has received, and over the one whose peer waits until
nothing is kept back: the same, and in the end all has left. -/
def bufConnection (W : Conn (WBuf (ConnRun (Bytes × Nat)))) : Option (SyncN (WBuf (ConnRun (Bytes × Nat))) × List Answer) :=
  match SyncN.new 200 W toy .debug (leBytes 4 7) .initiator (leBytes 32 3) none none ⟨⟨⟨([], 0), [], []⟩, [], false⟩, [], []⟩ with
  | some (_, .ok p) => p.calls 200 W toy .debug [.write (.genuine [1, 2, 3]), .read, .write (.decoy (List.replicate 70 9))]
  | _ => none

example : ∀ strict : Bool, (match bufConnection (if strict then (bufWriter 20 64 true samplePeer.toConn.logged).strict (fun s => s.buf)
      else bufWriter 20 64 true samplePeer.toConn.logged) with
    | some (p, xs) => (Answer.writes xs == [.ok (), .ok ()] && p.run.net.buf == [] && p.run.net.inner.sent == p.run.sent &&
        p.run.sent.length == 64 + 16 + 20 + 23 + 90)
    | none => false) = true := by
  decide +kernel

/-- The same, asynchronous API; the first poll finds nothing to read. -/
example : (match AsyncN.new 200 (bufWriterPoll 20 64 false samplePeer.logged) toy .debug (leBytes 4 7) .initiator (leBytes 32 3) none none
      ⟨⟨⟨([], 0), [], []⟩, [], false⟩, [], []⟩ with
    | some (_, .ok p) =>
      (match p.calls 200 (bufWriterPoll 20 64 false samplePeer.logged) toy .debug [.read, .write (.genuine [4, 5, 6]), .read] with
      | some (p', xs) => xs == [.pending, .wrote (.ok ()), .read (.ok (.decrypted (0 :: (p'.run.sent.drop 100).take 2)))] &&
          p'.run.net.inner.sent == p'.run.sent
      | none => false)
    | _ => false) = true := by decide +kernel

end Bip324
