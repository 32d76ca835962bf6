import Verif.Props.Shaping
import Verif.Props.NoPanic

/-!
# C42 for the shaped protocol, and C45

`C45`: what a returned `write` says about the wire.
-/

namespace Bip324

variable {P : Prims} {prof : Profile} {R : Rng}

/-! ## Reading through the shaper -/

theorem sync_read_contents {r r' : SyncReader} {p : Payload} (h : r.read P prof = (r', .ok p)) :
    p.Usable := by
  unfold SyncReader.read at h
  split at h
  · simp at h
  split at h
  · simp at h
  · simp at h
  split at h
  · simp at h
  split at h
  · simp at h
  · simp at h
  · rename_i heq
    obtain ⟨hm, hu⟩ := mkDecrypted_usable (prof := prof) (decryptToVec_ok_nonempty heq)
    rw [hm] at h
    simp only [Prod.mk.injEq, Outcome.ok.injEq] at h
    rw [← h.2]; exact hu

theorem pollPayload_contents {c : InboundCipher} {s : AsyncSession} {b : Bytes} {n : Nat}
    {r' : AsyncReader} {p : Payload}
    (h : AsyncReader.pollPayload P prof c s b n = (r', .ready (.ok p))) : p.Usable := by
  unfold AsyncReader.pollPayload at h
  split at h
  · simp at h
  · simp at h
  split at h
  · simp at h
  split at h
  · simp at h
  · simp at h
  · rename_i heq
    obtain ⟨hm, hu⟩ := mkDecrypted_usable (prof := prof) (decrypt_ok_nonempty heq)
    rw [hm] at h
    simp only [Prod.mk.injEq, PollResult.ready.injEq, Outcome.ok.injEq] at h
    rw [← h.2]; exact hu

theorem poll_contents {r r' : AsyncReader} {p : Payload} (h : r.poll P prof = (r', .ready (.ok p))) :
    p.Usable := by
  unfold AsyncReader.poll at h
  split at h
  · split at h
    · simp at h
    · simp at h
    split at h
    · simp at h
    · simp at h
    · exact pollPayload_contents h
  · exact pollPayload_contents h

/-- The shaped `read` is the plain `read`; it only counts. -/
theorem C42_shaped_read (r : ShapedReader) :
    (r.read P prof).1.reader = (r.reader.read P prof).1 ∧ (r.read P prof).2 = (r.reader.read P prof).2 := by
  unfold ShapedReader.read
  cases h : r.reader.read P prof with
  | mk rd x =>
  cases x with
  | ok p =>
    obtain ⟨⟨c, hc⟩, -⟩ := sync_read_contents h
    simp only [hc, and_self]
  | err e => exact ⟨rfl, rfl⟩
  | panic => exact ⟨rfl, rfl⟩

/-- The shaped asynchronous `read` is the plain one, poll by poll; it only counts. -/
theorem C42_shaped_poll (r : AsyncShapedReader) :
    (r.poll P prof).1.reader = (r.reader.poll P prof).1 ∧ (r.poll P prof).2 = (r.reader.poll P prof).2 := by
  unfold AsyncShapedReader.poll
  cases h : r.reader.poll P prof with
  | mk rd x =>
  cases x with
  | pending => exact ⟨rfl, rfl⟩
  | ready x =>
    cases x with
    | ok p =>
      obtain ⟨⟨c, hc⟩, -⟩ := poll_contents h
      simp only [hc, and_self]
    | err e => exact ⟨rfl, rfl⟩
    | panic => exact ⟨rfl, rfl⟩

/-! ## C42 -/

/-- A system with another reader half. -/
def ShapedSys.withReader (s : ShapedSys R) (r : ShapedReader) (reads : List (Outcome ProtocolError Payload)) :
    ShapedSys R :=
  { s with reader := r, reads := reads }

theorem ShapedSys.step_withReader (s : ShapedSys R) (r : ShapedReader)
    (reads : List (Outcome ProtocolError Payload)) {l : SysLabel} (hl : l ≠ .read) :
    (s.withReader r reads).step P prof l = (s.step P prof l).withReader r reads := by
  obtain ⟨ws, owner, poisoned, shutdown, app, bg, reader, called, returned, reads0⟩ := s
  cases l with
  | read => exact absurd rfl hl
  | call p => cases app <;> rfl
  | drop => cases app <;> rfl
  | app =>
    cases app with
    | idle => rfl
    | gone => rfl
    | joining => cases bg <;> rfl
    | locking p =>
      cases owner with
      | some t => rfl
      | none => cases poisoned <;> rfl
    | writing p pc => cases pc <;> rfl
  | bg =>
    cases bg with
    | checking => cases shutdown <;> rfl
    | sleeping => rfl
    | trying =>
      cases owner with
      | some t => rfl
      | none => cases poisoned <;> rfl
    | covering pc => cases pc <;> rfl
    | finished => rfl
    | panicked => rfl

/-- C42, shaped protocol with threads.  In every schedule the reads give what they give when nothing else
is done, and everything else happens as without the reads. -/
theorem C42_shaped_threads (s : ShapedSys R) (ls : List SysLabel) :
    let alone := runOne (fun r (_ : Unit) => ShapedReader.read P prof r) s.reader
      (List.replicate (ls.count .read) ())
    s.run P prof ls = (s.run P prof (ls.filter (· ≠ .read))).withReader alone.1 (s.reads ++ alone.2) := by
  simp only
  induction ls generalizing s with
  | nil => simp [ShapedSys.run, ShapedSys.withReader, runOne]
  | cons l ls ih =>
    by_cases hl : l = .read
    · subst hl
      have hstep : s.step P prof .read = s.withReader (s.reader.read P prof).1
          (s.reads ++ [(s.reader.read P prof).2]) := rfl
      have hrun : ∀ (ks : List SysLabel) (s : ShapedSys R) r reads, (∀ k ∈ ks, k ≠ .read) →
          (s.withReader r reads).run P prof ks = (s.run P prof ks).withReader r reads := by
        intro ks
        induction ks with
        | nil => intro s r reads _; rfl
        | cons k ks ihk =>
          intro s r reads hk
          show ((s.withReader r reads).step P prof k).run P prof ks = _
          rw [ShapedSys.step_withReader s r reads (hk k (by simp)), ihk _ _ _ (fun x hx => hk x (by simp [hx]))]
          rfl
      show (s.step P prof .read).run P prof ls = _
      rw [ih, hstep, hrun _ _ _ _ (by intro k hk; simpa using (List.mem_filter.1 hk).2)]
      simp only [ShapedSys.withReader, List.count_cons_self, List.replicate_succ, runOne,
        List.append_assoc, List.singleton_append]
      simp
    · show (s.step P prof l).run P prof ls = _
      have hr : (s.step P prof l).reader = s.reader ∧ (s.step P prof l).reads = s.reads := by
        have := ShapedSys.step_withReader (P := P) (prof := prof) s s.reader s.reads hl
        have h2 : s.withReader s.reader s.reads = s := rfl
        rw [h2] at this
        rw [this]
        exact ⟨rfl, rfl⟩
      rw [ih, hr.1, hr.2]
      have hc : (l :: ls).count .read = ls.count .read := by
        rw [List.count_cons_of_ne]; simpa using hl
      have hf : (l :: ls).filter (· ≠ .read) = l :: ls.filter (· ≠ .read) := by
        simp [hl]
      rw [hc, hf]
      rfl

/-- A system with another reader half. -/
def AsyncShapedSys.withReader (s : AsyncShapedSys R) (r : AsyncShapedReader) (reads : List PollResult) :
    AsyncShapedSys R :=
  { s with reader := r, reads := reads }

theorem AsyncShapedSys.step_withReader (s : AsyncShapedSys R) (r : AsyncShapedReader)
    (reads : List PollResult) {l : AsyncLabel} (hl : l ≠ .read) :
    (s.withReader r reads).step P prof l = (s.step P prof l).withReader r reads := by
  obtain ⟨ws, queue, closed, answers, task, caller, reader, called, returned, reads0⟩ := s
  cases l with
  | read => exact absurd rfl hl
  | call p =>
    cases caller with
    | idle => cases task <;> rfl
    | _ => rfl
  | resume =>
    cases caller with
    | waiting p rx =>
      simp only [AsyncShapedSys.step, AsyncShapedSys.withReader]
      cases answers.lookup rx with
      | some x => rfl
      | none => cases task <;> rfl
    | _ => rfl
  | cancel => cases caller <;> rfl
  | drop => cases caller <;> rfl
  | recv =>
    cases task with
    | select a b =>
      cases a with
      | true => rfl
      | false =>
        cases queue with
        | nil => cases closed <;> rfl
        | cons c q => rfl
    | _ => rfl
  | tick =>
    cases task with
    | select a b => cases b <;> rfl
    | _ => rfl
  | otherwise =>
    cases task with
    | select a b => cases a <;> cases b <;> rfl
    | _ => rfl
  | task =>
    cases task with
    | writing c pc =>
      cases pc with
      | done x => cases x <;> rfl
      | _ => rfl
    | covering pc =>
      cases pc with
      | done x => cases x <;> rfl
      | _ => rfl
    | _ => rfl

/-- C42, shaped protocol with a task. -/
theorem C42_shaped_task (s : AsyncShapedSys R) (ls : List AsyncLabel) :
    let alone := runOne (fun r (_ : Unit) => AsyncShapedReader.poll P prof r) s.reader
      (List.replicate (ls.count .read) ())
    s.run P prof ls = (s.run P prof (ls.filter (· ≠ .read))).withReader alone.1 (s.reads ++ alone.2) := by
  simp only
  induction ls generalizing s with
  | nil => simp [AsyncShapedSys.run, AsyncShapedSys.withReader, runOne]
  | cons l ls ih =>
    by_cases hl : l = .read
    · subst hl
      have hstep : s.step P prof .read = s.withReader (s.reader.poll P prof).1
          (s.reads ++ [(s.reader.poll P prof).2]) := rfl
      have hrun : ∀ (ks : List AsyncLabel) (s : AsyncShapedSys R) r reads, (∀ k ∈ ks, k ≠ .read) →
          (s.withReader r reads).run P prof ks = (s.run P prof ks).withReader r reads := by
        intro ks
        induction ks with
        | nil => intro s r reads _; rfl
        | cons k ks ihk =>
          intro s r reads hk
          show ((s.withReader r reads).step P prof k).run P prof ks = _
          rw [AsyncShapedSys.step_withReader s r reads (hk k (by simp)),
            ihk _ _ _ (fun x hx => hk x (by simp [hx]))]
          rfl
      show (s.step P prof .read).run P prof ls = _
      rw [ih, hstep, hrun _ _ _ _ (by intro k hk; simpa using (List.mem_filter.1 hk).2)]
      simp only [AsyncShapedSys.withReader, List.count_cons_self, List.replicate_succ, runOne,
        List.append_assoc, List.singleton_append]
      simp
    · show (s.step P prof l).run P prof ls = _
      have hr : (s.step P prof l).reader = s.reader ∧ (s.step P prof l).reads = s.reads := by
        have := AsyncShapedSys.step_withReader (P := P) (prof := prof) s s.reader s.reads hl
        have h2 : s.withReader s.reader s.reads = s := rfl
        rw [h2] at this
        rw [this]
        exact ⟨rfl, rfl⟩
      rw [ih, hr.1, hr.2]
      have hc : (l :: ls).count .read = ls.count .read := by
        rw [List.count_cons_of_ne]; simpa using hl
      have hf : (l :: ls).filter (· ≠ .read) = l :: ls.filter (· ≠ .read) := by
        simp [hl]
      rw [hc, hf]
      rfl

/-! ## C45 -/

theorem writeAllGo_error (retry : Bool) (s : List WEv) (buf : Bytes) {k : ErrorKind}
    (h : (writeAllGo retry s buf).2.2 = .error k) :
    (writeAllGo retry s buf).2.1.length < buf.length := by
  induction s generalizing buf with
  | nil => cases buf <;> simp [writeAllGo] at h
  | cons e s ih =>
    cases buf with
    | nil => simp [writeAllGo] at h
    | cons b buf =>
      cases e with
      | pending => exact ih (b :: buf) h
      | fail k =>
        simp only [writeAllGo] at h ⊢
        split
        · rename_i hc
          rw [if_pos hc] at h
          exact ih _ h
        · simp
      | accept n =>
        cases n with
        | zero => simp [writeAllGo]
        | succ n =>
          simp only [writeAllGo] at h ⊢
          have := ih _ h
          generalize (writeAllGo retry s (List.drop (n + 1) (b :: buf))).2.1 = x at this ⊢
          simp only [List.length_append, List.length_drop, List.length_take, List.length_cons] at this ⊢
          omega

/-- No flush of the transport will fail. -/
def Sink.FlushesOk (w : Sink) : Prop := ∀ x ∈ w.flushes, x = none

theorem send_error {w w' : Sink} {retry : Bool} {buf : Bytes} {k : ErrorKind} (hf : w.FlushesOk)
    (h : w.send retry buf = (w', .error k)) :
    ∃ part, part <+: buf ∧ part ≠ buf ∧ w'.out = w.out ++ part := by
  have h1 := (writeAllGo_taken retry w.script buf).1
  have h2 := fun k => writeAllGo_error retry w.script buf (k := k)
  unfold Sink.send Sink.writeAll at h
  cases hw : writeAllGo retry w.script buf with
  | mk s x =>
  obtain ⟨taken, r⟩ := x
  rw [hw] at h1 h2
  simp only [hw] at h
  cases r with
  | error k' =>
    simp only [Prod.mk.injEq] at h
    refine ⟨taken, h1, ?_, by rw [← h.1]⟩
    intro he
    have := h2 k' rfl
    simp only [he] at this
    exact Nat.lt_irrefl _ this
  | ok u =>
    exfalso
    simp only [Sink.flush] at h
    cases hfl : w.flushes with
    | nil => simp [hfl] at h
    | cons x fs =>
      have : x = none := hf x (by simp [hfl])
      subst this
      simp [hfl] at h

theorem send_flushes (w : Sink) (retry : Bool) (buf : Bytes) :
    (w.send retry buf).1.flushes <:+ w.flushes := by
  unfold Sink.send Sink.writeAll
  cases hw : writeAllGo retry w.script buf with
  | mk s x =>
  obtain ⟨taken, r⟩ := x
  cases r with
  | error k => exact List.suffix_rfl
  | ok u =>
    simp only [Sink.flush]
    cases hfl : w.flushes with
    | nil => simp
    | cons x fs => cases x <;> exact ⟨[_], rfl⟩

theorem write_flushes (f : Flavour) (w : Writer) (p : Payload) :
    (w.write f P prof p).1.writer.flushes <:+ w.writer.flushes := by
  cases hv : p.view with
  | none => rw [Writer.write_none f w hv]; exact List.suffix_rfl
  | some v =>
    rw [Writer.write_eq f w hv]
    cases he : w.cipher.encryptToVec P prof v.2 v.1 none with
    | mk o x =>
    cases x with
    | panic => exact List.suffix_rfl
    | err e => exact List.suffix_rfl
    | ok pkt =>
      have := send_flushes w.writer f.retry pkt
      cases hs : w.writer.send f.retry pkt with
      | mk s y =>
      rw [hs] at this
      simp only [hs]
      cases y <;> exact this

theorem exec_flushes (f : Flavour) (ws : WriterState R) (job : Job) :
    (ws.exec f P prof job).1.writer.writer.flushes <:+ ws.writer.writer.flushes := by
  cases job with
  | write p =>
    simp only [WriterState.exec, WriterState.write]
    cases hp : ws.shaper.pad p with
    | none => exact List.suffix_rfl
    | some x =>
      obtain ⟨sh, d, rec⟩ := x
      cases d with
      | none => exact write_flushes f ws.writer p
      | some q =>
        have h1 := write_flushes (P := P) (prof := prof) f ws.writer q
        cases hw : ws.writer.write f P prof q with
        | mk w r =>
        rw [hw] at h1
        cases r with
        | ok u =>
          simp only [hw]
          exact (write_flushes f w p).trans h1
        | err e => simpa only [hw] using h1
        | panic => simpa only [hw] using h1
  | cover =>
    simp only [WriterState.exec, WriterState.cover]
    cases hp : ws.shaper.decoy with
    | mk sh x =>
    obtain ⟨d, rec⟩ := x
    cases d with
    | none => exact List.suffix_rfl
    | some q => exact write_flushes f ws.writer q

theorem Serial.flushesOk {f : Flavour} {tr : List (Job × Outcome ProtocolError Unit)}
    {ws0 ws1 : WriterState R} (h : Serial f P prof ws0 tr ws1)
    (hf : ws0.writer.writer.FlushesOk) : ws1.writer.writer.FlushesOk := by
  induction tr generalizing ws0 with
  | nil =>
    unfold Serial at h
    simp only [List.map_nil, runOne, Prod.mk.injEq, and_true] at h
    subst h; exact hf
  | cons x tr ih =>
    obtain ⟨job, r⟩ := x
    obtain ⟨ws, he, hs⟩ := h.cons_inv
    have := exec_flushes (P := P) (prof := prof) f ws0 job
    rw [he] at this
    exact ih hs (fun x hx => hf x (this.subset hx))

/-- The payload has been handed to the transport completely, in one packet, right after at most one
decoy: `before` is what the transport had, `after` what it has. -/
def HandedOver (P : Prims) (prof : Profile) (o o' : OutboundCipher) (p : Payload)
    (before after : Bytes) : Prop :=
  ∃ ds pkts, (ds = [] ∨ ∃ d, ShaperDecoy d ∧ ds = [d]) ∧ Sent P prof o (ds ++ [p]) o' pkts ∧
    after = before ++ pkts

/-- The payload has not been handed over: either not even its packet was begun (at most the padding
decoy, or a part of it, was sent), or a proper part of its packet was sent. -/
def NotHandedOver (P : Prims) (prof : Profile) (o : OutboundCipher) (p : Payload)
    (before after : Bytes) : Prop :=
  (∃ d o' pkt part, ShaperDecoy d ∧ Sent P prof o [d] o' pkt ∧ part <+: pkt ∧ after = before ++ part) ∨
  ∃ ds o1 o2 pkts t c pkt part, (ds = [] ∨ ∃ d, ShaperDecoy d ∧ ds = [d]) ∧ Sent P prof o ds o1 pkts ∧
    p.view = some (t, c) ∧ o1.encryptToVec P prof c t none = (o2, .ok pkt) ∧ part <+: pkt ∧ part ≠ pkt ∧
    after = before ++ pkts ++ part

/-- C45, one job: `Ok` means handed over. -/
theorem C45_job_ok {f : Flavour} {ws ws' : WriterState R} {p : Payload}
    (h : ws.write f P prof p = (ws', .ok ())) :
    HandedOver P prof ws.writer.cipher ws'.writer.cipher p ws.writer.writer.out ws'.writer.writer.out := by
  obtain ⟨m, bytes, h1, h2, h3, -⟩ := write_job_ok h
  rcases h1 with rfl | ⟨d, hd, rfl⟩
  · exact ⟨[], bytes, .inl rfl, h2, h3⟩
  · exact ⟨[d], bytes, .inr ⟨d, hd, rfl⟩, h2, h3⟩

theorem write_err {f : Flavour} {w w' : Writer} {p : Payload} {e : ProtocolError}
    (hf : w.writer.FlushesOk) (h : w.write f P prof p = (w', .err e)) :
    ∃ t c pkt part, p.view = some (t, c) ∧ w.cipher.encryptToVec P prof c t none = (w'.cipher, .ok pkt) ∧
      part <+: pkt ∧ part ≠ pkt ∧ w'.writer.out = w.writer.out ++ part := by
  cases hv : p.view with
  | none => rw [Writer.write_none f w hv] at h; simp at h
  | some v =>
    obtain ⟨t, c⟩ := v
    rw [Writer.write_eq f w hv] at h
    cases he : w.cipher.encryptToVec P prof c t none with
    | mk o r =>
    rw [he] at h
    cases r with
    | panic => simp at h
    | err e => simp at h
    | ok pkt =>
      cases hs : w.writer.send f.retry pkt with
      | mk s x =>
      simp only [hs] at h
      cases x with
      | ok u => simp at h
      | error k =>
        simp only [Prod.mk.injEq] at h
        obtain ⟨rfl, -⟩ := h
        obtain ⟨part, h1, h2, h3⟩ := send_error hf hs
        exact ⟨t, c, pkt, part, rfl, he, h1, h2, h3⟩

/-- C45, one job: an error means not handed over — provided the transport's `flush` does not fail (see
`C45_flush_counterexample`). -/
theorem C45_job_error_partial {f : Flavour} {ws ws' : WriterState R} {p : Payload} {e : ProtocolError}
    (hf : ws.writer.writer.FlushesOk) (h : ws.write f P prof p = (ws', .err e)) :
    NotHandedOver P prof ws.writer.cipher p ws.writer.writer.out ws'.writer.writer.out := by
  unfold WriterState.write at h
  cases hp : ws.shaper.pad p with
  | none => simp [hp] at h
  | some x =>
    obtain ⟨sh, d, rec⟩ := x
    obtain ⟨-, -, -, -, hd⟩ := pad_some hp
    rw [hp] at h
    cases d with
    | none =>
      cases hw : ws.writer.write f P prof p with
      | mk w r =>
      simp only [hw, Prod.mk.injEq] at h
      obtain ⟨rfl, rfl⟩ := h
      obtain ⟨t, c, pkt, part, h1, h2, h3, h4, h5⟩ := write_err hf hw
      exact .inr ⟨[], _, _, [], t, c, pkt, part, .inl rfl, .nil _, h1, h2, h3, h4, by simpa using h5⟩
    | some q =>
      have hq := hd q rfl
      cases hw : ws.writer.write f P prof q with
      | mk w r =>
      cases r with
      | ok u =>
        have hfl : w.writer.FlushesOk := by
          have := write_flushes (P := P) (prof := prof) f ws.writer q
          rw [hw] at this
          exact fun x hx => hf x (this.subset hx)
        cases hw2 : w.write f P prof p with
        | mk w2 r2 =>
        simp only [hw, hw2, Prod.mk.injEq] at h
        obtain ⟨rfl, rfl⟩ := h
        obtain ⟨b, k1, k2⟩ := write_sent hw
        obtain ⟨t, c, pkt, part, h1, h2, h3, h4, h5⟩ := write_err hfl hw2
        exact .inr ⟨[q], _, _, b, t, c, pkt, part, .inr ⟨q, hq, rfl⟩, k1, h1, h2, h3, h4,
          by simp only [h5, k2]⟩
      | err e' =>
        simp only [hw, Prod.mk.injEq] at h
        obtain ⟨rfl, -⟩ := h
        obtain ⟨t, c, pkt, part, h1, h2, h3, h4, h5⟩ := write_err hf hw
        exact .inl ⟨q, _, pkt ++ [], part, hq, .cons h1 h2 (.nil _), by simpa using h3, h5⟩
      | panic => simp [hw] at h

theorem writesOf_split {tr : List (Job × Outcome ProtocolError Unit)}
    {r1 r2 : List (Payload × Outcome ProtocolError Unit)} {p : Payload}
    {r : Outcome ProtocolError Unit} (h : writesOf tr = r1 ++ (p, r) :: r2) :
    ∃ tr1 tr2, tr = tr1 ++ (.write p, r) :: tr2 ∧ writesOf tr1 = r1 := by
  induction tr generalizing r1 with
  | nil => simp [writesOf] at h
  | cons x tr ih =>
    obtain ⟨j, x⟩ := x
    cases j with
    | cover =>
      obtain ⟨tr1, tr2, rfl, h2⟩ := ih h
      exact ⟨(.cover, x) :: tr1, tr2, rfl, h2⟩
    | write q =>
      cases r1 with
      | nil =>
        simp only [writesOf, List.nil_append, List.cons.injEq, Prod.mk.injEq] at h
        obtain ⟨⟨rfl, rfl⟩, -⟩ := h
        exact ⟨[], tr, rfl, rfl⟩
      | cons y r1 =>
        simp only [writesOf, List.cons_append, List.cons.injEq] at h
        obtain ⟨rfl, h⟩ := h
        obtain ⟨tr1, tr2, rfl, h2⟩ := ih h
        exact ⟨(.write q, x) :: tr1, tr2, rfl, by simp [writesOf, h2]⟩

theorem Serial.append_inv {f : Flavour} {a b : List (Job × Outcome ProtocolError Unit)}
    {ws0 ws1 : WriterState R} (h : Serial f P prof ws0 (a ++ b) ws1) :
    ∃ ws, Serial f P prof ws0 a ws ∧ Serial f P prof ws b ws1 := by
  induction a generalizing ws0 with
  | nil => exact ⟨ws0, .nil _ _, h⟩
  | cons x a ih =>
    obtain ⟨job, r⟩ := x
    obtain ⟨ws, he, hs⟩ := Serial.cons_inv h
    obtain ⟨ws', h1, h2⟩ := ih hs
    refine ⟨ws', ?_, h2⟩
    unfold Serial at h1 ⊢
    simp only [List.map_cons, runOne, he, h1]

/-- The write with that result, in a list of whole jobs. -/
theorem Serial.find {f : Flavour} {tr : List (Job × Outcome ProtocolError Unit)}
    {ws0 ws1 : WriterState R} (h : Serial f P prof ws0 tr ws1)
    {r1 r2 : List (Payload × Outcome ProtocolError Unit)} {p : Payload}
    {r : Outcome ProtocolError Unit} (hw : writesOf tr = r1 ++ (p, r) :: r2) :
    ∃ tr1 ws ws', Serial f P prof ws0 tr1 ws ∧ writesOf tr1 = r1 ∧ ws.write f P prof p = (ws', r) ∧
      ws'.writer.writer.out <+: ws1.writer.writer.out := by
  obtain ⟨tr1, tr2, rfl, hr⟩ := writesOf_split hw
  obtain ⟨ws, h1, h2⟩ := h.append_inv
  obtain ⟨ws', h3, h4⟩ := h2.cons_inv
  exact ⟨tr1, ws, ws', h1, hr, h3, h4.out⟩

/-- The wire only grows, and results are added only when the lock is released. -/
theorem ShapedSys.step_grows (s : ShapedSys R) (l : SysLabel) :
    s.ws.writer.writer.out <+: (s.step P prof l).ws.writer.writer.out ∧
      ((s.step P prof l).returned = s.returned ∨ (s.step P prof l).owner = none) := by
  cases l with
  | call p => simp only [ShapedSys.step]; split <;> exact ⟨List.prefix_rfl, .inl rfl⟩
  | drop => simp only [ShapedSys.step]; split <;> exact ⟨List.prefix_rfl, .inl rfl⟩
  | read => exact ⟨List.prefix_rfl, .inl rfl⟩
  | app =>
    simp only [ShapedSys.step, ShapedSys.appStep]
    cases ha : s.app with
    | idle => exact ⟨List.prefix_rfl, .inl rfl⟩
    | gone => exact ⟨List.prefix_rfl, .inl rfl⟩
    | joining => simp only; split <;> exact ⟨List.prefix_rfl, .inl rfl⟩
    | locking p =>
      cases ho : s.owner with
      | some t => exact ⟨List.prefix_rfl, .inl rfl⟩
      | none =>
        simp only
        split
        · exact ⟨List.prefix_rfl, .inr rfl⟩
        · exact ⟨List.prefix_rfl, .inl rfl⟩
    | writing p pc =>
      have := JobPc.step_out (P := P) (prof := prof) .sync s.ws pc
      cases pc with
      | done r => exact ⟨List.prefix_rfl, .inr rfl⟩
      | _ => exact ⟨this, .inl rfl⟩
  | bg =>
    simp only [ShapedSys.step, ShapedSys.bgStep]
    cases hb : s.bg with
    | checking => exact ⟨List.prefix_rfl, .inl rfl⟩
    | sleeping => exact ⟨List.prefix_rfl, .inl rfl⟩
    | trying =>
      cases ho : s.owner with
      | some t => exact ⟨List.prefix_rfl, .inl rfl⟩
      | none => simp only; split <;> exact ⟨List.prefix_rfl, .inl rfl⟩
    | covering pc =>
      have := JobPc.step_out (P := P) (prof := prof) .sync s.ws pc
      cases pc with
      | done r => exact ⟨List.prefix_rfl, .inl rfl⟩
      | _ => exact ⟨this, .inl rfl⟩
    | finished => exact ⟨List.prefix_rfl, .inl rfl⟩
    | panicked => exact ⟨List.prefix_rfl, .inl rfl⟩

/-- For each result other than a panic there was such a write job, after the jobs of the results before
it, whose bytes are on the wire. -/
def ShapedSys.Traced (P : Prims) (prof : Profile) (ws0 : WriterState R) (s : ShapedSys R) : Prop :=
  ∀ r1 p r r2, s.returned = r1 ++ (p, r) :: r2 → r ≠ .panic →
    ∃ tr1 ws ws', Serial .sync P prof ws0 tr1 ws ∧ writesOf tr1 = r1 ∧
      ws.write .sync P prof p = (ws', r) ∧ ws'.writer.writer.out <+: s.ws.writer.writer.out

theorem ShapedSys.traced_quiet {ws0 : WriterState R} {s : ShapedSys R} (h : s.Inv P prof ws0)
    (ho : s.owner = none) : s.Traced P prof ws0 := by
  obtain ⟨-, h⟩ := h
  rcases h with ⟨tr, qs, h⟩ | ⟨tr, p, pc, h, -⟩ | ⟨tr, pc, h, -⟩
  · obtain ⟨-, -, -, hser, hret, -⟩ := h
    intro r1 p r r2 hr hne
    rw [hret] at hr
    have hnot : ∀ l : List (Payload × Outcome ProtocolError Unit), (p, r) ∈ l →
        l <:+ qs.map (fun q => (q, .panic)) → False := by
      intro l hl hs
      obtain ⟨q, -, hq⟩ := List.mem_map.1 (hs.subset hl)
      cases hq
      exact hne rfl
    rcases List.append_eq_append_iff.1 hr with ⟨a', h1, h2⟩ | ⟨c', h1, h2⟩
    · exact (hnot ((p, r) :: r2) (by simp) ⟨a', h2.symm⟩).elim
    · cases c' with
      | nil =>
        exact (hnot ((p, r) :: r2) (by simp) ⟨[], by simpa using h2⟩).elim
      | cons y c' =>
        simp only [List.cons_append, List.cons.injEq] at h2
        obtain ⟨rfl, -⟩ := h2
        exact hser.find h1
  · rw [ho] at h; cases h
  · rw [ho] at h; cases h

theorem ShapedSys.traced_run {ws0 : WriterState R} (ls : List SysLabel) {s : ShapedSys R}
    (h : s.Inv P prof ws0) (ht : s.Traced P prof ws0) : (s.run P prof ls).Traced P prof ws0 := by
  induction ls generalizing s with
  | nil => exact ht
  | cons l ls ih =>
    refine ih (h.step l) ?_
    obtain ⟨h1, h2⟩ := ShapedSys.step_grows (P := P) (prof := prof) s l
    rcases h2 with h2 | h2
    · intro r1 p r r2 hr hne
      rw [h2] at hr
      obtain ⟨tr1, ws, ws', a, b, c, d⟩ := ht r1 p r r2 hr hne
      exact ⟨tr1, ws, ws', a, b, c, d.trans h1⟩
    · exact ShapedSys.traced_quiet (h.step l) h2

theorem ShapedSys.Fresh.traced {s0 : ShapedSys R} (h0 : s0.Fresh) (ls : List SysLabel) :
    (s0.run P prof ls).Traced P prof s0.ws :=
  ShapedSys.traced_run ls h0.inv (ShapedSys.traced_quiet h0.inv h0.owner)

/-- C45, threads.  In every schedule and for every behaviour of the transport: whenever a `write` has
returned `Ok`, a packet with its payload has been handed over completely, after at most one padding
decoy.  (`tr1`: the jobs before it, among them exactly the writes that returned before; so different
writes have different packets.) -/
theorem C45_threads_ok {s0 : ShapedSys R} (h0 : s0.Fresh) (ls : List SysLabel)
    {r1 r2 : List (Payload × Outcome ProtocolError Unit)} {p : Payload}
    (h : (s0.run P prof ls).returned = r1 ++ (p, .ok ()) :: r2) :
    ∃ tr1 ws, ∃ ws' : WriterState R, Serial .sync P prof s0.ws tr1 ws ∧ writesOf tr1 = r1 ∧
      HandedOver P prof ws.writer.cipher ws'.writer.cipher p ws.writer.writer.out ws'.writer.writer.out ∧
      ws'.writer.writer.out <+: (s0.run P prof ls).ws.writer.writer.out := by
  obtain ⟨tr1, ws, ws', a, b, c, d⟩ := h0.traced (P := P) (prof := prof) ls r1 p _ r2 h (by simp)
  exact ⟨tr1, ws, ws', a, b, C45_job_ok c, d⟩

/-- C45, threads: a `write` that has returned an error has not handed its payload over — if the
transport's `flush` never fails. -/
theorem C45_threads_error_partial {s0 : ShapedSys R} (h0 : s0.Fresh)
    (hf : s0.ws.writer.writer.FlushesOk) (ls : List SysLabel)
    {r1 r2 : List (Payload × Outcome ProtocolError Unit)} {p : Payload} {e : ProtocolError}
    (h : (s0.run P prof ls).returned = r1 ++ (p, .err e) :: r2) :
    ∃ tr1 ws, ∃ ws' : WriterState R, Serial .sync P prof s0.ws tr1 ws ∧ writesOf tr1 = r1 ∧
      NotHandedOver P prof ws.writer.cipher p ws.writer.writer.out ws'.writer.writer.out ∧
      ws.write .sync P prof p = (ws', .err e) := by
  obtain ⟨tr1, ws, ws', a, b, c, d⟩ := h0.traced (P := P) (prof := prof) ls r1 p _ r2 h (by simp)
  exact ⟨tr1, ws, ws', a, b, C45_job_error_partial (a.flushesOk hf) c, c⟩

/-- In every state of the task: the whole jobs done so far, whose bytes are on the wire, and what the
application knows about them. -/
theorem AsyncShapedSys.Inv.traced {ws0 : WriterState R} {s : AsyncShapedSys R} (h : s.Inv P prof ws0) :
    ∃ tr ws ret gone, Serial .async P prof ws0 tr ws ∧ ws.writer.writer.out <+: s.ws.writer.writer.out ∧
      s.returned = ret ++ gone.map (fun p => (p, .err taskGone)) ∧ (gone ≠ [] → s.task = .panicked) ∧
      ret.Sublist (writesOf tr) := by
  obtain ⟨tr, -, -, ⟨ret, gone, e1, e2, e3⟩, h⟩ := h
  have e3 : ret.Sublist (writesOf tr) := by
    rcases e3 with ⟨_, e⟩ | ⟨_, _, _, _, _, e⟩
    · exact e
    · exact e.trans (List.take_sublist _ _)
  have : ∃ ws, Serial .async P prof ws0 tr ws ∧ ws.writer.writer.out <+: s.ws.writer.writer.out := by
    rcases h with ⟨_, _, _, h, -⟩ | ⟨_, _, _, _, _, _, _, _, h⟩ | ⟨_, _, _, _, _, _, h⟩ | ⟨_, _, _, h, -⟩
    · exact ⟨_, h, List.prefix_rfl⟩
    · exact h
    · exact h
    · obtain ⟨ws, k1, k2⟩ := h.append_inv
      exact ⟨ws, k1, k2.out⟩
  obtain ⟨ws, k1, k2⟩ := this
  exact ⟨tr, ws, ret, gone, k1, k2, e1, e2, e3⟩

/-- For each result there was such a write job, whose bytes are on the wire; or the task is dead. -/
theorem C45_task_traced {s0 : AsyncShapedSys R} (h0 : s0.Fresh) (ls : List AsyncLabel)
    {r1 r2 : List (Payload × Outcome ProtocolError Unit)} {p : Payload} {r : Outcome ProtocolError Unit}
    (h : (s0.run P prof ls).returned = r1 ++ (p, r) :: r2) :
    (∃ tr1 ws, ∃ ws' : WriterState R, Serial .async P prof s0.ws tr1 ws ∧ r1.Sublist (writesOf tr1) ∧
      ws.write .async P prof p = (ws', r) ∧
      ws'.writer.writer.out <+: (s0.run P prof ls).ws.writer.writer.out) ∨
    (r = .err (.io .unexpectedEof .abort) ∧ (s0.run P prof ls).task = .panicked) := by
  obtain ⟨tr, ws, ret, gone, k1, k2, k3, k4, k5⟩ := (h0.inv.run (P := P) (prof := prof) ls).traced
  rw [k3] at h
  have hgone : ∀ l : List (Payload × Outcome ProtocolError Unit), (p, r) ∈ l →
      l <:+ gone.map (fun q => (q, .err taskGone)) →
      r = .err taskGone ∧ (s0.run P prof ls).task = .panicked := by
    intro l hl hs
    obtain ⟨q, hq, hq'⟩ := List.mem_map.1 (hs.subset hl)
    cases hq'
    exact ⟨rfl, k4 (List.ne_nil_of_mem hq)⟩
  rcases List.append_eq_append_iff.1 h with ⟨a', h1, h2⟩ | ⟨c', h1, h2⟩
  · exact .inr (hgone ((p, r) :: r2) (by simp) ⟨a', h2.symm⟩)
  · cases c' with
    | nil => exact .inr (hgone ((p, r) :: r2) (by simp) ⟨[], by simpa using h2⟩)
    | cons y c' =>
      simp only [List.cons_append, List.cons.injEq] at h2
      obtain ⟨rfl, -⟩ := h2
      subst h1
      obtain ⟨l1, l2, e1, e2, e3⟩ := List.append_sublist_iff.1 k5
      obtain ⟨m1, m2, f1, f2, f3⟩ := List.cons_sublist_iff.1 e3
      obtain ⟨n1, n2, rfl⟩ := List.append_of_mem f2
      have hw : writesOf tr = (l1 ++ n1) ++ (p, r) :: (n2 ++ m2) := by
        rw [e1, f1]; simp
      obtain ⟨tr1, w1, w2, g1, g2, g3, g4⟩ := k1.find hw
      exact .inl ⟨tr1, w1, w2, g1, by rw [g2]; exact e2.trans (List.sublist_append_left _ _), g3,
        g4.trans k2⟩

/-- C45, task.  Whenever a `write` has returned `Ok`, a packet with its payload has been handed over
completely, after at most one padding decoy, and after the packets of the writes that returned before. -/
theorem C45_task_ok {s0 : AsyncShapedSys R} (h0 : s0.Fresh) (ls : List AsyncLabel)
    {r1 r2 : List (Payload × Outcome ProtocolError Unit)} {p : Payload}
    (h : (s0.run P prof ls).returned = r1 ++ (p, .ok ()) :: r2) :
    ∃ tr1 ws, ∃ ws' : WriterState R, Serial .async P prof s0.ws tr1 ws ∧ r1.Sublist (writesOf tr1) ∧
      HandedOver P prof ws.writer.cipher ws'.writer.cipher p ws.writer.writer.out ws'.writer.writer.out ∧
      ws'.writer.writer.out <+: (s0.run P prof ls).ws.writer.writer.out := by
  rcases C45_task_traced h0 ls h with ⟨tr1, ws, ws', a, b, c, d⟩ | ⟨h, -⟩
  · exact ⟨tr1, ws, ws', a, b, C45_job_ok c, d⟩
  · cases h

/-- C45, task: a `write` that has returned an error has not handed its payload over, if the transport's
`flush` never fails; or the task is dead, for which see `C45_task_gone`. -/
theorem C45_task_error_partial {s0 : AsyncShapedSys R} (h0 : s0.Fresh)
    (hf : s0.ws.writer.writer.FlushesOk) (ls : List AsyncLabel)
    {r1 r2 : List (Payload × Outcome ProtocolError Unit)} {p : Payload} {e : ProtocolError}
    (h : (s0.run P prof ls).returned = r1 ++ (p, .err e) :: r2) :
    (∃ tr1 ws, ∃ ws' : WriterState R, Serial .async P prof s0.ws tr1 ws ∧ r1.Sublist (writesOf tr1) ∧
      NotHandedOver P prof ws.writer.cipher p ws.writer.writer.out ws'.writer.writer.out ∧
      ws.write .async P prof p = (ws', .err e)) ∨
    (e = .io .unexpectedEof .abort ∧ (s0.run P prof ls).task = .panicked) := by
  rcases C45_task_traced h0 ls h with ⟨tr1, ws, ws', a, b, c, d⟩ | ⟨h, h'⟩
  · exact .inl ⟨tr1, ws, ws', a, b, C45_job_error_partial (a.flushesOk hf) c, c⟩
  · cases h; exact .inr ⟨rfl, h'⟩

/-- A job that panics has sent nothing of a payload: at most one decoy. -/
theorem panic_out {f : Flavour} {ws ws' : WriterState R} {job : Job}
    (h : ws.exec f P prof job = (ws', .panic)) :
    ws'.writer.writer.out = ws.writer.writer.out ∨
      ∃ d o pkt, ShaperDecoy d ∧ Sent P prof ws.writer.cipher [d] o pkt ∧
        ws'.writer.writer.out = ws.writer.writer.out ++ pkt := by
  have hw : ∀ {w w' : Writer} {p : Payload}, w.write f P prof p = (w', .panic) →
      w'.writer = w.writer := by
    intro w w' p h
    cases hv : p.view with
    | none => rw [Writer.write_none f w hv] at h; cases h; rfl
    | some v =>
      rw [Writer.write_eq f w hv] at h
      cases he : w.cipher.encryptToVec P prof v.2 v.1 none with
      | mk o r =>
      rw [he] at h
      cases r with
      | panic => cases h; rfl
      | err e => cases h; rfl
      | ok pkt =>
        cases hs : w.writer.send f.retry pkt with
        | mk s x =>
        simp only [hs] at h
        cases x <;> cases h
  cases job with
  | write p =>
    simp only [WriterState.exec, WriterState.write] at h
    cases hp : ws.shaper.pad p with
    | none => rw [hp] at h; cases h; exact .inl rfl
    | some x =>
      obtain ⟨sh, d, rec⟩ := x
      obtain ⟨-, -, -, -, hd⟩ := pad_some hp
      rw [hp] at h
      cases d with
      | none =>
        cases hw1 : ws.writer.write f P prof p with
        | mk w r =>
        simp only [hw1, Prod.mk.injEq] at h
        obtain ⟨rfl, rfl⟩ := h
        exact .inl (by rw [hw hw1])
      | some q =>
        cases hw1 : ws.writer.write f P prof q with
        | mk w r =>
        cases r with
        | ok u =>
          cases hw2 : w.write f P prof p with
          | mk w2 r2 =>
          simp only [hw1, hw2, Prod.mk.injEq] at h
          obtain ⟨rfl, rfl⟩ := h
          obtain ⟨b, k1, k2⟩ := write_sent hw1
          exact .inr ⟨q, _, b, hd q rfl, k1, by simp only [hw hw2, k2]⟩
        | err e' => simp [hw1] at h
        | panic =>
          simp only [hw1, Prod.mk.injEq, and_true] at h
          rw [← h]
          exact .inl (by rw [hw hw1])
  | cover =>
    simp only [WriterState.exec, WriterState.cover] at h
    cases hp : ws.shaper.decoy with
    | mk sh x =>
    obtain ⟨d, rec⟩ := x
    rw [hp] at h
    cases d with
    | none => cases h
    | some q =>
      cases hw1 : ws.writer.write f P prof q with
      | mk w r =>
      cases r with
      | ok u => simp [hw1] at h
      | err e' => simp [hw1] at h
      | panic =>
        simp only [hw1, Prod.mk.injEq, and_true] at h
        rw [← h]
        exact .inl (by rw [hw hw1])

/-- C45, task: a caller that learns that the task is dead knows that its payload was not handed over.
It was the `c.length`-th accepted payload; the task has finished at most `c.length` writes, with all
their bytes on the wire; and after those the wire has at most one decoy. -/
theorem C45_task_gone {s0 : AsyncShapedSys R} (h0 : s0.Fresh) (ls : List AsyncLabel) {p : Payload}
    {rx : Nat} (hc : (s0.run P prof ls).caller = .waiting p rx)
    (hd : (s0.run P prof ls).task = .panicked) (hl : (s0.run P prof ls).answers.lookup rx = none) :
    ∃ tr ws c, Serial .async P prof s0.ws tr ws ∧ (s0.run P prof ls).called = c ++ [p] ∧
      writtenBy tr <+: c ∧
      ((s0.run P prof ls).ws.writer.writer.out = ws.writer.writer.out ∨
        ∃ d o pkt, ShaperDecoy d ∧ Sent P prof ws.writer.cipher [d] o pkt ∧
          (s0.run P prof ls).ws.writer.writer.out = ws.writer.writer.out ++ pkt) := by
  obtain ⟨tr, -, ha, ⟨ret, gone, -, -, e3⟩, h⟩ := h0.inv.run (P := P) (prof := prof) ls
  rcases h with ⟨_, _, h1, -⟩ | ⟨_, _, _, h1, -⟩ | ⟨_, _, h1, -⟩ | ⟨job, rest, h1, h2, h3, h4⟩
  · rw [hd] at h1; cases h1
  · rw [hd] at h1; cases h1
  · rw [hd] at h1; cases h1
  rcases e3 with ⟨e, -⟩ | ⟨q, c, e, f1, -, -⟩
  · exact absurd hc (e p rx)
  rw [hc] at e
  cases e
  obtain ⟨ws, k1, k2⟩ := h2.append_inv
  obtain ⟨ws', k3, k4⟩ := k2.cons_inv
  have k4 : ws' = (s0.run P prof ls).ws := by
    have := k4
    unfold Serial at this
    simpa [runOne] using this
  have hlen : (writesOf tr).length ≤ c.length := by
    have := number_lookup ((writesOf tr).map (·.2)) 0 c.length
    rw [Nat.zero_add, ← ha, hl] at this
    have := List.getElem?_eq_none_iff.1 this.symm
    simpa using this
  refine ⟨tr, ws, c, k1, f1, ?_, ?_⟩
  · have h5 : writtenBy tr <+: c ++ [p] := by rw [← f1, h3]; exact List.prefix_append _ _
    exact List.prefix_of_prefix_length_le h5 (List.prefix_append _ _) (by simpa using hlen)
  · rw [← k4]
    exact panic_out k3

/-- The second half of C45 is false as stated: when `flush` fails after `write_all` has succeeded,
`write` returns an error although the transport has taken the whole packet; the peer reads it. -/
theorem C45_flush_counterexample :
    let s0 : ShapedSys listRng := .init
      ⟨⟨sampleIn, ⟨[], false, []⟩⟩, ⟨sampleOut, ⟨[], [some .timedOut], []⟩⟩⟩ ⟨.default, []⟩ []
    let s := s0.run toy .debug (.call (.genuine [1, 2]) :: List.replicate 12 .app)
    s0.Fresh ∧ s.returned = [(.genuine [1, 2], .err (.io .timedOut .abort))] ∧
      seen (SyncReader.read toy .debug ⟨sampleIn, ⟨[], false, [.data s.ws.writer.writer.out]⟩⟩).2
        = some (.genuine, [1, 2]) := by
  exact ⟨ShapedSys.init_fresh _ _ _, by decide +kernel, by decide +kernel⟩

/-- Non-vacuity of `C45_threads_ok`: the sample session returns `Ok` twice. -/
example : (sampleSys.run toy .debug sampleSchedule).returned =
    [(.genuine [1, 2, 3], .ok ())] ++ (.genuine [7], .ok ()) :: [] := by decide +kernel

/-- Non-vacuity of `C45_threads_error_partial`: the transport fails in the middle of the padding decoy,
resp. of the payload. -/
example :
    let s0 (n : Nat) : ShapedSys listRng := .init
      ⟨⟨sampleIn, ⟨[], false, []⟩⟩, ⟨sampleOut, ⟨[.accept n, .fail .brokenPipe], [none], []⟩⟩⟩
      ⟨⟨.random, .disabled⟩, [4]⟩ []
    let s (n : Nat) := (s0 n).run toy .debug (.call (.genuine [1, 2]) :: List.replicate 16 .app)
    (s0 3).ws.writer.writer.FlushesOk ∧
      (s 3).returned = [(.genuine [1, 2], .err (.io .brokenPipe .abort))] ∧
      (s 24).returned = [(.genuine [1, 2], .err (.io .brokenPipe .abort))] ∧
      (s 3).ws.writer.writer.out.length = 3 ∧ (s 24).ws.writer.writer.out.length = 24 := by
  refine ⟨by simp [Sink.FlushesOk, ShapedSys.init], by decide +kernel, by decide +kernel,
    by decide +kernel, by decide +kernel⟩

/-- A session of the asynchronous API: a decoy, a write whose caller gives up, a write that is answered. -/
def sampleTask : AsyncShapedSys listRng :=
  .init ⟨⟨sampleIn, ⟨[], 0, []⟩, .initReadingLength⟩, ⟨sampleOut, ⟨[.pending, .accept 5], [], []⟩⟩⟩
    ⟨⟨.random, .random⟩, [99, 2, 3, 1]⟩ []

/-- Its schedule. -/
def sampleTaskSchedule : List AsyncLabel :=
  [.tick] ++ List.replicate 12 .task ++ [.call (.genuine [1, 2]), .cancel, .call (.genuine [3]), .recv] ++
    List.replicate 20 .task ++ [.resume, .recv] ++ List.replicate 20 .task ++ [.resume]

/-- Non-vacuity of `C45_task_ok`. -/
example : sampleTask.Fresh ∧ (sampleTask.run toy .debug sampleTaskSchedule).returned =
    [] ++ (.genuine [3], .ok ()) :: [] := by
  exact ⟨AsyncShapedSys.init_fresh _ _ _, by decide +kernel⟩

/-- Non-vacuity of `C45_task_error_partial`. -/
example :
    let s0 : AsyncShapedSys listRng := .init
      ⟨⟨sampleIn, ⟨[], 0, []⟩, .initReadingLength⟩, ⟨sampleOut, ⟨[.accept 3, .fail .brokenPipe], [none], []⟩⟩⟩
      ⟨⟨.random, .disabled⟩, [4]⟩ []
    let s := s0.run toy .debug ([.call (.genuine [1, 2]), .recv] ++ List.replicate 12 .task ++ [.resume])
    s0.ws.writer.writer.FlushesOk ∧
      s.returned = [(.genuine [1, 2], .err (.io .brokenPipe .abort))] := by
  exact ⟨by simp [Sink.FlushesOk, AsyncShapedSys.init], by decide +kernel⟩

/-- Non-vacuity of `C45_task_gone`: a payload without the packet type byte makes the task panic. -/
example :
    let s0 : AsyncShapedSys listRng := .init
      ⟨⟨sampleIn, ⟨[], 0, []⟩, .initReadingLength⟩, ⟨sampleOut, ⟨[], [], []⟩⟩⟩ ⟨.default, []⟩ []
    let s := s0.run toy .debug ([.call (.decrypted []), .recv] ++ List.replicate 3 .task)
    s.task = .panicked ∧ s.caller = .waiting (.decrypted []) 0 ∧ s.answers.lookup 0 = none := by
  exact ⟨by decide +kernel, by decide +kernel, by decide +kernel⟩

/-- The counterexample for the task. -/
theorem C45_flush_counterexample_task :
    let s0 : AsyncShapedSys listRng := .init
      ⟨⟨sampleIn, ⟨[], 0, []⟩, .initReadingLength⟩, ⟨sampleOut, ⟨[], [some .timedOut], []⟩⟩⟩ ⟨.default, []⟩ []
    let s := s0.run toy .debug ([.call (.genuine [1, 2]), .recv] ++ List.replicate 12 .task ++ [.resume])
    s0.Fresh ∧ s.returned = [(.genuine [1, 2], .err (.io .timedOut .abort))] ∧
      seen (SyncReader.read toy .debug ⟨sampleIn, ⟨[], false, [.data s.ws.writer.writer.out]⟩⟩).2
        = some (.genuine, [1, 2]) := by
  exact ⟨AsyncShapedSys.init_fresh _ _ _, by decide +kernel, by decide +kernel⟩

/-- Non-vacuity of `C42_shaped_threads`: reads in between. -/
example :
    let s0 : ShapedSys listRng := .init
      ⟨⟨sampleIn, ⟨[], false, [.data (sampleSys.run toy .debug sampleSchedule).ws.writer.writer.out.tail]⟩⟩,
        ⟨sampleOut, ⟨[], [], []⟩⟩⟩ ⟨⟨.random, .random⟩, [2, 3]⟩ []
    let s := s0.run toy .debug ([.bg, .read, .bg, .bg, .call (.genuine [1]), .read, .bg, .app, .read] ++
      List.replicate 6 .bg ++ List.replicate 14 .app ++ [.read])
    s.reads.map seen = [some (.decoy, [0, 0]), some (.decoy, [0, 0, 0]), some (.genuine, [1, 2, 3]),
      some (.decoy, [0])] ∧ s.returned = [(.genuine [1], .ok ())] := by
  exact ⟨by decide +kernel, by decide +kernel⟩

end Bip324
