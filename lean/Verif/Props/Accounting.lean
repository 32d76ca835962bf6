import Verif.Props.ShapedWrite

/-!
# C55: the statistics and the wire

`record_write` is called by the shaper before anything is written, `record_read` after a payload was read.  How the
recorded numbers relate to the bytes on the wire and to the peer's.
-/

namespace Bip324

variable {P : Prims} {prof : Profile} {R : Rng}

/-- The length of the contents. -/
def Payload.size (p : Payload) : Nat := (p.contents.getD []).length

/-- The bytes on the wire of packets whose contents have these lengths. -/
def wireLength (sizes : List Nat) : Nat := sizes.sum + 20 * sizes.length

theorem wireLength_append (a b : List Nat) : wireLength (a ++ b) = wireLength a + wireLength b := by
  simp only [wireLength, List.sum_append, List.length_append]; omega

theorem wireLength_perm {a b : List Nat} (h : a.Perm b) : wireLength a = wireLength b := by
  simp only [wireLength, h.length_eq]
  have : a.sum = b.sum := by
    induction h with
    | nil => rfl
    | cons x _ ih => simp [ih]
    | swap x y l => simp; omega
    | trans _ _ h1 h2 => exact h1.trans h2
  rw [this]

/-! ## What the shaper records -/

theorem pad_recorded {s s' : Shaper R} {p : Payload} {d : Option Payload} {rec : List Nat}
    (h : s.pad p = some (s', d, rec)) : rec = p.size :: (d.toList.map Payload.size) := by
  unfold Shaper.pad at h
  cases hc : p.contents with
  | none => simp [hc] at h
  | some c =>
    rw [hc] at h
    cases hs : s.config.padding with
    | disabled =>
      simp only [hs, Option.some.injEq, Prod.mk.injEq] at h
      obtain ⟨-, rfl, rfl⟩ := h
      simp [Payload.size, hc]
    | random =>
      simp only [hs, Option.some.injEq, Prod.mk.injEq] at h
      obtain ⟨-, rfl, rfl⟩ := h
      have hz : ∀ n, (Payload.decoy (zeros n)).size = n := by
        intro n; simp [Payload.size, Payload.decoy, Payload.contents, zeros]
      simp only [Option.toList_some, List.map_cons, List.map_nil, hz]
      simp [Payload.size, hc]

theorem decoy_recorded {s s' : Shaper R} {d : Option Payload} {rec : List Nat}
    (h : s.decoy = (s', d, rec)) : rec = d.toList.map Payload.size := by
  unfold Shaper.decoy at h
  cases hs : s.config.decoy with
  | disabled =>
    simp only [hs, Prod.mk.injEq] at h
    obtain ⟨-, rfl, rfl⟩ := h
    rfl
  | random =>
    simp only [hs] at h
    split at h
    · simp only [Prod.mk.injEq] at h
      obtain ⟨-, rfl, rfl⟩ := h
      rfl
    · simp only [Prod.mk.injEq] at h
      obtain ⟨-, rfl, rfl⟩ := h
      simp [Payload.size, Payload.decoy, Payload.contents, zeros]

theorem size_of_view {p : Payload} {t : PacketType} {c : Bytes} (h : p.view = some (t, c)) :
    p.size = c.length := by
  simp [Payload.size, (Payload.view_some.1 h).2]

theorem Sent.length (hP : Lawful P) {o o' : OutboundCipher} {ps : List Payload} {bytes : Bytes}
    (h : Sent P prof o ps o' bytes) : bytes.length = wireLength (ps.map Payload.size) := by
  induction h with
  | nil => rfl
  | cons hv he _ ih =>
    have := packet_length hP he
    simp only [List.length_append, ih, this, wireLength, List.map_cons, List.sum_cons, List.length_cons,
      size_of_view hv]
    omega

/-! ## Whole jobs -/

theorem exec_recorded {f : Flavour} {ws ws' : WriterState R} {job : Job}
    (h : ws.exec f P prof job = (ws', .ok ())) :
    ∃ m bytes rec, job.Marks m ∧
      Sent P prof ws.writer.cipher (m.map (·.2)) ws'.writer.cipher bytes ∧
      ws'.writer.writer.out = ws.writer.writer.out ++ bytes ∧
      ws'.recorded = ws.recorded ++ rec ∧ rec.Perm (m.map (·.2.size)) := by
  cases job with
  | write p =>
    simp only [WriterState.exec, WriterState.write] at h
    cases hp : ws.shaper.pad p with
    | none => simp [hp] at h
    | some x =>
      obtain ⟨sh, d, rec⟩ := x
      have hr := pad_recorded hp
      obtain ⟨-, -, -, -, hd⟩ := pad_some hp
      rw [hp] at h
      cases d with
      | none =>
        cases hw : ws.writer.write f P prof p with
        | mk w r =>
        simp only [hw, Prod.mk.injEq] at h
        obtain ⟨rfl, rfl⟩ := h
        obtain ⟨b, h1, h2⟩ := write_sent hw
        exact ⟨[(true, p)], b, rec, .inl rfl, h1, h2, rfl, by rw [hr]; exact .refl _⟩
      | some q =>
        cases hw : ws.writer.write f P prof q with
        | mk w r =>
        cases r with
        | ok u =>
          cases hw2 : w.write f P prof p with
          | mk w2 r2 =>
          simp only [hw, hw2, Prod.mk.injEq] at h
          obtain ⟨rfl, rfl⟩ := h
          obtain ⟨b, h1, h2⟩ := write_sent hw
          obtain ⟨b2, h3, h4⟩ := write_sent hw2
          refine ⟨[(false, q), (true, p)], b ++ b2, rec, .inr ⟨q, hd q rfl, rfl⟩, h1.append h3, ?_, rfl, ?_⟩
          · simp only [h4, h2, List.append_assoc]
          · rw [hr]; exact .swap _ _ _
        | err e => simp [hw] at h
        | panic => simp [hw] at h
  | cover =>
    simp only [WriterState.exec, WriterState.cover] at h
    cases hp : ws.shaper.decoy with
    | mk sh x =>
    obtain ⟨d, rec⟩ := x
    have hr := decoy_recorded hp
    obtain ⟨-, -, hd⟩ := decoy_some hp
    cases d with
    | none =>
      simp only [hp, Prod.mk.injEq, and_true] at h
      subst h
      exact ⟨[], [], rec, .inl rfl, .nil _, by simp, rfl, by rw [hr]; exact .refl _⟩
    | some q =>
      cases hw : ws.writer.write f P prof q with
      | mk w r =>
      simp only [hp, hw, Prod.mk.injEq] at h
      obtain ⟨rfl, rfl⟩ := h
      obtain ⟨b, h1, h2⟩ := write_sent hw
      exact ⟨[(false, q)], b, rec, .inr ⟨q, hd q rfl, rfl⟩, h1, h2, rfl, by rw [hr]; exact .refl _⟩

/-- `Serial.sent` with the record. -/
theorem Serial.accounted {f : Flavour} {tr : List (Job × Outcome ProtocolError Unit)}
    {ws0 ws1 : WriterState R} (h : Serial f P prof ws0 tr ws1) (hok : ∀ x ∈ tr, x.2 = .ok ()) :
    ∃ m bytes rec, Sent P prof ws0.writer.cipher (m.map (·.2)) ws1.writer.cipher bytes ∧
      ws1.writer.writer.out = ws0.writer.writer.out ++ bytes ∧ Shaped (writtenBy tr) m ∧
      ws1.recorded = ws0.recorded ++ rec ∧ rec.Perm (m.map (·.2.size)) := by
  induction tr generalizing ws0 with
  | nil =>
    unfold Serial at h
    simp only [List.map_nil, runOne, Prod.mk.injEq, and_true] at h
    subst h
    exact ⟨[], [], [], .nil _, by simp, ⟨rfl, by simp⟩, by simp, .refl _⟩
  | cons x tr ih =>
    obtain ⟨job, r⟩ := x
    obtain ⟨ws, he, hs⟩ := h.cons_inv
    have : r = .ok () := hok (job, r) (by simp)
    subst this
    obtain ⟨m, b, rec, h1, h2, h3, h4, h5⟩ := exec_recorded he
    obtain ⟨m', b', rec', g1, g2, ⟨g3, g4⟩, g5, g6⟩ := ih hs (fun x hx => hok x (by simp [hx]))
    obtain ⟨k1, k2⟩ := h1.own (.ok ())
    refine ⟨m ++ m', b ++ b', rec ++ rec', by rw [List.map_append]; exact h2.append g1, ?_, ⟨?_, ?_⟩, ?_, ?_⟩
    · rw [g2, h3, List.append_assoc]
    · rw [ownOf_append, k1, g3]
      cases job <;> simp [writtenBy, writesOf]
    · intro x hx
      rcases List.mem_append.1 hx with hx | hx
      · exact k2 x hx
      · exact g4 x hx
    · rw [g5, h4, List.append_assoc]
    · rw [List.map_append]; exact h5.append g6

/-! ## The readers -/

/-- A shaped reader that reads that many times. -/
def ShapedReader.readMany (P : Prims) (prof : Profile) : ShapedReader → Nat →
    ShapedReader × List (Outcome ProtocolError Payload)
  | r, 0 => (r, [])
  | r, n + 1 =>
    match r.read P prof with
    | (r1, x) =>
      match ShapedReader.readMany P prof r1 n with
      | (r2, xs) => (r2, x :: xs)

/-- A shaped asynchronous reader that is polled and cancelled. -/
def AsyncShapedReader.run (P : Prims) (prof : Profile) : AsyncShapedReader → List ReadEvent →
    AsyncShapedReader × List (Outcome ProtocolError Payload)
  | r, [] => (r, [])
  | r, .cancel :: es => AsyncShapedReader.run P prof r es
  | r, .poll :: es =>
    match r.poll P prof with
    | (r1, .pending) => AsyncShapedReader.run P prof r1 es
    | (r1, .ready x) =>
      match AsyncShapedReader.run P prof r1 es with
      | (r2, xs) => (r2, x :: xs)

theorem shaped_read_eq (r : ShapedReader) : r.read P prof =
    (⟨(r.reader.read P prof).1, r.recorded ++ (payloads [(r.reader.read P prof).2]).map Payload.size⟩,
      (r.reader.read P prof).2) := by
  unfold ShapedReader.read
  cases h : r.reader.read P prof with
  | mk rd x =>
  cases x with
  | ok p =>
    obtain ⟨⟨c, hc⟩, -⟩ := sync_read_contents h
    simp only [hc, payloads, List.map_cons, List.map_nil, Payload.size, Option.getD_some]
  | err e => simp [payloads]
  | panic => simp [payloads]

/-- The payload among the results of a poll. -/
def polled : PollResult → List Payload
  | .ready x => payloads [x]
  | .pending => []

theorem shaped_poll_eq (r : AsyncShapedReader) : r.poll P prof =
    (⟨(r.reader.poll P prof).1, r.recorded ++ (polled (r.reader.poll P prof).2).map Payload.size⟩,
      (r.reader.poll P prof).2) := by
  unfold AsyncShapedReader.poll
  cases h : r.reader.poll P prof with
  | mk rd x =>
  cases x with
  | pending => simp [polled]
  | ready x =>
    cases x with
    | ok p =>
      obtain ⟨⟨c, hc⟩, -⟩ := poll_contents h
      simp only [hc, polled, payloads, List.map_cons, List.map_nil, Payload.size, Option.getD_some]
    | err e => simp [polled, payloads]
    | panic => simp [polled, payloads]

theorem payloads_cons (x : Outcome ProtocolError Payload) (xs : List (Outcome ProtocolError Payload)) :
    payloads (x :: xs) = payloads [x] ++ payloads xs := by
  cases x <;> rfl

/-- C55, synchronous reader: on every stream and over any number of calls, it returns what the plain reader returns,
and has recorded the lengths of the contents returned, nothing else. -/
theorem C55_reads (r : ShapedReader) (n : Nat) :
    r.readMany P prof n =
      (⟨(r.reader.readMany P prof n).1,
        r.recorded ++ (payloads (r.reader.readMany P prof n).2).map Payload.size⟩,
      (r.reader.readMany P prof n).2) := by
  induction n generalizing r with
  | zero => simp [ShapedReader.readMany, SyncReader.readMany, payloads]
  | succ n ih =>
    simp only [ShapedReader.readMany, SyncReader.readMany, shaped_read_eq, ih]
    rw [payloads_cons (r.reader.read P prof).2 (SyncReader.readMany P prof _ n).2, List.map_append,
      List.append_assoc]

/-- C55, asynchronous reader: the same, however its futures are polled and dropped. -/
theorem C55_reads_async (r : AsyncShapedReader) (es : List ReadEvent) :
    r.run P prof es =
      (⟨(r.reader.run P prof es).1, r.recorded ++ (payloads (r.reader.run P prof es).2).map Payload.size⟩,
      (r.reader.run P prof es).2) := by
  induction es generalizing r with
  | nil => simp [AsyncShapedReader.run, AsyncReader.run, payloads]
  | cons e es ih =>
    cases e with
    | cancel => simp only [AsyncShapedReader.run, AsyncReader.run, ih]
    | poll =>
      simp only [AsyncShapedReader.run, AsyncReader.run, shaped_poll_eq]
      cases hp : r.reader.poll P prof with
      | mk rd x =>
      cases x with
      | pending => simp [ih, polled]
      | ready x =>
        simp only [ih, polled]
        rw [payloads_cons x (AsyncReader.run P prof rd es).2, List.map_append, List.append_assoc]

theorem sizes_of_seen {outs : List (Outcome ProtocolError Payload)} {ps : List Payload}
    (h : outs.map seen = ps.map Payload.view) (hu : ∀ p ∈ ps, ∃ v, p.view = some v) :
    (payloads outs).map Payload.size = ps.map Payload.size := by
  induction ps generalizing outs with
  | nil => cases outs with
    | nil => rfl
    | cons => simp at h
  | cons p ps ih =>
    cases outs with
    | nil => simp at h
    | cons x outs =>
      simp only [List.map_cons, List.cons.injEq] at h
      obtain ⟨v, hv⟩ := hu p (by simp)
      cases x with
      | ok q =>
        have hq : q.view = some v := by rw [← hv]; exact h.1
        obtain ⟨t, c⟩ := v
        simp only [payloads, List.map_cons, size_of_view hv, size_of_view hq,
          ih h.2 (fun p hp => hu p (by simp [hp]))]
      | err e => rw [hv] at h; cases h.1
      | panic => rw [hv] at h; cases h.1

theorem sizes_of_views {qs ps : List Payload} (h : qs.map Payload.view = ps.map Payload.view) :
    qs.map Payload.size = ps.map Payload.size := by
  have : ∀ p : Payload, p.size = ((p.view.map fun v => v.2).getD []).length := by
    intro p
    cases p with
    | parts h c => rfl
    | decrypted d => cases d <;> rfl
  have e : ∀ l : List Payload, l.map Payload.size =
      (l.map Payload.view).map (fun v => ((v.map fun v => v.2).getD []).length) := by
    intro l
    rw [List.map_map]
    exact List.map_congr_left fun p _ => this p
  rw [e, e, h]

/-! ## Bytes that are still to come -/

/-- What a write in progress may still put on the wire. -/
def WProc.due : WProc → Nat
  | .start p => p.size + 20
  | .sending rest => rest.length
  | .flushing => 0
  | .done _ => 0

/-- What a job in progress may still put on the wire of that which is recorded already. -/
def JobPc.due : JobPc → Nat
  | .start _ => 0
  | .padding w p => w.due + (p.size + 20)
  | .payload w => w.due
  | .cover w => w.due
  | .done _ => 0

theorem WProc.step_due (hP : Lawful P) (f : Flavour) (w : Writer) (pc : WProc) :
    (pc.step f P prof w).1.writer.out.length + (pc.step f P prof w).2.due ≤
      w.writer.out.length + pc.due := by
  cases pc with
  | start p =>
    simp only [WProc.step]
    split
    · rename_i c t hc ht
      have hsz : p.size = c.length := by simp [Payload.size, hc]
      cases he : w.cipher.encryptToVec P prof c t none with
      | mk o x =>
      cases x with
      | ok pkt =>
        have := packet_length hP he
        simp only [WProc.due]; omega
      | err e => simp only [WProc.due]; omega
      | panic => simp only [WProc.due]; omega
    · simp only [WProc.due]; omega
  | sending rest =>
    cases rest with
    | nil => simp [WProc.step, WProc.due]
    | cons b bs =>
      simp only [WProc.step]
      split
      · simp [WProc.due]
      · simp [WProc.due]
      · split <;> simp [WProc.due]
      · simp [WProc.due]
      · simp only [WProc.due, List.length_append, List.length_take, List.length_drop]; omega
  | flushing =>
    have := flush_out w.writer
    simp only [WProc.step]
    split
    · rename_i s h; rw [h] at this; simp only at this; simp [this, WProc.due]
    · rename_i s k h; rw [h] at this; simp only at this; simp [this, WProc.due]
  | done r => exact Nat.le_refl _

theorem JobPc.step_due (hP : Lawful P) (f : Flavour) (ws : WriterState R) (pc : JobPc) :
    ∃ rec, (pc.step f P prof ws).1.recorded = ws.recorded ++ rec ∧
      (pc.step f P prof ws).1.writer.writer.out.length + (pc.step f P prof ws).2.due ≤
        ws.writer.writer.out.length + pc.due + wireLength rec := by
  have inner : ∀ (w : WProc), (w.step f P prof ws.writer).1.writer.out.length +
      (w.step f P prof ws.writer).2.due ≤ ws.writer.writer.out.length + w.due := WProc.step_due hP f ws.writer
  cases pc with
  | start job =>
    cases job with
    | write p =>
      cases hp : ws.shaper.pad p with
      | none => exact ⟨[], by simp [JobPc.step, hp], by simp [JobPc.step, hp, JobPc.due]⟩
      | some x =>
        obtain ⟨sh, d, rec⟩ := x
        have hr := pad_recorded hp
        cases d with
        | none =>
          refine ⟨rec, by simp [JobPc.step, hp], ?_⟩
          simp [JobPc.step, hp, JobPc.due, WProc.due, hr, wireLength]
        | some q =>
          refine ⟨rec, by simp [JobPc.step, hp], ?_⟩
          simp [JobPc.step, hp, JobPc.due, WProc.due, hr, wireLength]
          omega
    | cover =>
      cases hp : ws.shaper.decoy with
      | mk sh x =>
      obtain ⟨d, rec⟩ := x
      have hr := decoy_recorded hp
      cases d with
      | none => exact ⟨rec, by simp [JobPc.step, hp], by simp [JobPc.step, hp, JobPc.due]⟩
      | some q =>
        refine ⟨rec, by simp [JobPc.step, hp], ?_⟩
        simp [JobPc.step, hp, JobPc.due, WProc.due, hr, wireLength]
  | padding w p =>
    refine ⟨[], ?_, ?_⟩
    · cases w with
      | done r => cases r <;> simp [JobPc.step]
      | start q => simp [JobPc.step]
      | sending rest => simp [JobPc.step]
      | flushing => simp [JobPc.step]
    · have := inner w
      cases w with
      | done r => cases r <;> simp [JobPc.step, JobPc.due, WProc.due, wireLength]
      | start q => simp only [JobPc.step, JobPc.due]; omega
      | sending rest => simp only [JobPc.step, JobPc.due]; omega
      | flushing => simp only [JobPc.step, JobPc.due]; omega
  | payload w =>
    refine ⟨[], ?_, ?_⟩
    · cases w <;> simp [JobPc.step]
    · have := inner w
      cases w with
      | done r => simp [JobPc.step, JobPc.due, WProc.due]
      | start q => simp only [JobPc.step, JobPc.due]; omega
      | sending rest => simp only [JobPc.step, JobPc.due]; omega
      | flushing => simp only [JobPc.step, JobPc.due]; omega
  | cover w =>
    refine ⟨[], ?_, ?_⟩
    · cases w <;> simp [JobPc.step]
    · have := inner w
      cases w with
      | done r => simp [JobPc.step, JobPc.due, WProc.due]
      | start q => simp only [JobPc.step, JobPc.due]; omega
      | sending rest => simp only [JobPc.step, JobPc.due]; omega
      | flushing => simp only [JobPc.step, JobPc.due]; omega
  | done r => exact ⟨[], by simp [JobPc.step], by simp [JobPc.step, JobPc.due]⟩

/-- What the application's thread may still put on the wire. -/
def AppPc.due : AppPc → Nat
  | .writing _ pc => pc.due
  | _ => 0

/-- What the decoy thread may still put on the wire. -/
def BgPc.due : BgPc → Nat
  | .covering pc => pc.due
  | _ => 0

/-- What the task may still put on the wire. -/
def TaskPc.due : TaskPc → Nat
  | .writing _ pc => pc.due
  | .covering pc => pc.due
  | _ => 0

/-- The bytes on the wire and those that may follow are covered by the record. -/
def Covered (ws0 ws : WriterState R) (due : Nat) : Prop :=
  ∃ rec, ws.recorded = ws0.recorded ++ rec ∧
    ws.writer.writer.out.length + due ≤ ws0.writer.writer.out.length + wireLength rec

theorem Covered.step (hP : Lawful P) {ws0 ws : WriterState R} {pc : JobPc} {more : Nat} (f : Flavour)
    (h : Covered ws0 ws (pc.due + more)) :
    Covered ws0 (pc.step f P prof ws).1 ((pc.step f P prof ws).2.due + more) := by
  obtain ⟨rec, h1, h2⟩ := h
  obtain ⟨rec', g1, g2⟩ := JobPc.step_due (prof := prof) hP f ws pc
  refine ⟨rec ++ rec', by rw [g1, h1, List.append_assoc], ?_⟩
  rw [wireLength_append]; omega

theorem Covered.le {ws0 ws : WriterState R} {a b : Nat} (h : Covered ws0 ws a) (hab : b ≤ a) :
    Covered ws0 ws b := by
  obtain ⟨rec, h1, h2⟩ := h
  exact ⟨rec, h1, by omega⟩

theorem ShapedSys.covered_step (hP : Lawful P) {ws0 : WriterState R} (s : ShapedSys R) (l : SysLabel)
    (h : Covered ws0 s.ws (s.app.due + s.bg.due)) :
    Covered ws0 (s.step P prof l).ws ((s.step P prof l).app.due + (s.step P prof l).bg.due) := by
  obtain ⟨ws, owner, poisoned, shutdown, app, bg, reader, called, returned, reads⟩ := s
  cases l with
  | call p => cases app <;> exact h
  | drop => cases app <;> exact h
  | read => exact h
  | app =>
    cases app with
    | idle => exact h
    | gone => exact h
    | joining =>
      simp only [ShapedSys.step, ShapedSys.appStep]
      split <;> exact h
    | locking p =>
      cases owner with
      | some t => exact h
      | none => cases poisoned <;> exact h
    | writing p pc =>
      rcases pc.done_or with ⟨r, rfl⟩ | hd
      · exact h
      · simp only [ShapedSys.step]
        rw [ShapedSys.app_writes (p := p) (pc := pc) rfl hd]
        exact Covered.step hP .sync h
  | bg =>
    cases bg with
    | checking =>
      simp only [ShapedSys.step, ShapedSys.bgStep]
      cases shutdown <;> exact h
    | sleeping => exact h
    | trying =>
      cases owner with
      | some t => exact h
      | none => cases poisoned <;> exact h
    | covering pc =>
      rcases pc.done_or with ⟨r, rfl⟩ | hd
      · simp only [ShapedSys.step, ShapedSys.bgStep]
        split <;> exact h
      · simp only [ShapedSys.step]
        rw [ShapedSys.bg_writes (pc := pc) rfl hd]
        refine Covered.le (Covered.step hP .sync (more := app.due) (h.le ?_)) ?_
        · simp only [BgPc.due]; omega
        · simp only [BgPc.due]; omega
    | finished => exact h
    | panicked => exact h

/-- C55, threads.  At every moment of every schedule, over every transport and whatever fails: the bytes written to
the transport are at most those recorded and twenty per recorded message. -/
theorem C55_upper_bound (hP : Lawful P) {s0 : ShapedSys R} (h0 : s0.Fresh) (ls : List SysLabel) :
    ∃ sent rec, (s0.run P prof ls).ws.writer.writer.out = s0.ws.writer.writer.out ++ sent ∧
      (s0.run P prof ls).ws.recorded = s0.ws.recorded ++ rec ∧
      sent.length ≤ rec.sum + 20 * rec.length := by
  have hrun : ∀ (ls : List SysLabel) (s : ShapedSys R), Covered s0.ws s.ws (s.app.due + s.bg.due) →
      s0.ws.writer.writer.out <+: s.ws.writer.writer.out →
      Covered s0.ws (s.run P prof ls).ws 0 ∧ s0.ws.writer.writer.out <+: (s.run P prof ls).ws.writer.writer.out := by
    intro ls
    induction ls with
    | nil => exact fun s h1 h2 => ⟨h1.le (by omega), h2⟩
    | cons l ls ih =>
      exact fun s h1 h2 => ih _ (ShapedSys.covered_step hP s l h1) (h2.trans (s.step_grows l).1)
  obtain ⟨⟨rec, h1, h2⟩, sent, h3⟩ := hrun ls s0
    ⟨[], by simp, by simp [h0.app, h0.bg, AppPc.due, BgPc.due, wireLength]⟩ List.prefix_rfl
  refine ⟨sent, rec, h3.symm, h1, ?_⟩
  rw [← h3, List.length_append] at h2
  simp only [wireLength] at h2
  omega

theorem AsyncShapedSys.covered_step (hP : Lawful P) {ws0 : WriterState R} (s : AsyncShapedSys R) (l : AsyncLabel)
    (h : Covered ws0 s.ws s.task.due) :
    Covered ws0 (s.step P prof l).ws (s.step P prof l).task.due ∧
      s.ws.writer.writer.out <+: (s.step P prof l).ws.writer.writer.out := by
  obtain ⟨ws, queue, closed, answers, task, caller, reader, called, returned, reads⟩ := s
  cases l with
  | call p =>
    simp only [AsyncShapedSys.step]
    split
    · split <;> exact ⟨h, List.prefix_rfl⟩
    · exact ⟨h, List.prefix_rfl⟩
  | resume =>
    simp only [AsyncShapedSys.step]
    split
    · split
      · exact ⟨h, List.prefix_rfl⟩
      · split <;> exact ⟨h, List.prefix_rfl⟩
    · exact ⟨h, List.prefix_rfl⟩
  | cancel => cases caller <;> exact ⟨h, List.prefix_rfl⟩
  | drop => cases caller <;> exact ⟨h, List.prefix_rfl⟩
  | recv =>
    simp only [AsyncShapedSys.step]
    split
    · split
      · exact ⟨h.le (Nat.zero_le _), List.prefix_rfl⟩
      · split <;> exact ⟨h, List.prefix_rfl⟩
    · exact ⟨h, List.prefix_rfl⟩
  | tick =>
    simp only [AsyncShapedSys.step]
    split
    · exact ⟨h.le (Nat.zero_le _), List.prefix_rfl⟩
    · exact ⟨h, List.prefix_rfl⟩
  | otherwise =>
    simp only [AsyncShapedSys.step]
    split
    · exact ⟨h.le (Nat.zero_le _), List.prefix_rfl⟩
    · exact ⟨h, List.prefix_rfl⟩
  | read => exact ⟨h, List.prefix_rfl⟩
  | task =>
    cases task with
    | select a b => exact ⟨h, List.prefix_rfl⟩
    | finished => exact ⟨h, List.prefix_rfl⟩
    | panicked => exact ⟨h, List.prefix_rfl⟩
    | writing cmd pc =>
      rcases pc.done_or with ⟨r, rfl⟩ | hd
      · simp only [AsyncShapedSys.step, AsyncShapedSys.taskStep]
        split <;> exact ⟨h, List.prefix_rfl⟩
      · have e : AsyncShapedSys.step P prof ⟨ws, queue, closed, answers, .writing cmd pc, caller, reader, called,
            returned, reads⟩ .task = ⟨(pc.step .async P prof ws).1, queue, closed, answers,
              .writing cmd (pc.step .async P prof ws).2, caller, reader, called, returned, reads⟩ := by
          cases pc <;> first | rfl | exact absurd rfl (hd _)
        rw [e]
        exact ⟨Covered.step hP .async (more := 0) h, JobPc.step_out .async ws pc⟩
    | covering pc =>
      rcases pc.done_or with ⟨r, rfl⟩ | hd
      · simp only [AsyncShapedSys.step, AsyncShapedSys.taskStep]
        split <;> exact ⟨h, List.prefix_rfl⟩
      · have e : AsyncShapedSys.step P prof ⟨ws, queue, closed, answers, .covering pc, caller, reader, called,
            returned, reads⟩ .task = ⟨(pc.step .async P prof ws).1, queue, closed, answers,
              .covering (pc.step .async P prof ws).2, caller, reader, called, returned, reads⟩ := by
          cases pc <;> first | rfl | exact absurd rfl (hd _)
        rw [e]
        exact ⟨Covered.step hP .async (more := 0) h, JobPc.step_out .async ws pc⟩

/-- C55, task: the same. -/
theorem C55_upper_bound_task (hP : Lawful P) {s0 : AsyncShapedSys R} (h0 : s0.Fresh) (ls : List AsyncLabel) :
    ∃ sent rec, (s0.run P prof ls).ws.writer.writer.out = s0.ws.writer.writer.out ++ sent ∧
      (s0.run P prof ls).ws.recorded = s0.ws.recorded ++ rec ∧
      sent.length ≤ rec.sum + 20 * rec.length := by
  have hrun : ∀ (ls : List AsyncLabel) (s : AsyncShapedSys R), Covered s0.ws s.ws s.task.due →
      s0.ws.writer.writer.out <+: s.ws.writer.writer.out →
      Covered s0.ws (s.run P prof ls).ws 0 ∧ s0.ws.writer.writer.out <+: (s.run P prof ls).ws.writer.writer.out := by
    intro ls
    induction ls with
    | nil => exact fun s h1 h2 => ⟨h1.le (by omega), h2⟩
    | cons l ls ih =>
      exact fun s h1 h2 => ih _ (AsyncShapedSys.covered_step hP s l h1).1
        (h2.trans (AsyncShapedSys.covered_step hP s l h1).2)
  obtain ⟨⟨rec, h1, h2⟩, sent, h3⟩ := hrun ls s0
    ⟨[], by simp, by simp [h0.task, TaskPc.due, wireLength]⟩ List.prefix_rfl
  refine ⟨sent, rec, h3.symm, h1, ?_⟩
  rw [← h3, List.length_append] at h2
  simp only [wireLength] at h2
  omega

/-! ## Reliable transports -/

/-- The bytes `sent` are packets whose contents have the recorded lengths (in another order), and every peer that reads
all of them, of either API, records the same lengths. -/
def AccountedFor (P : Prims) (prof : Profile) (o : OutboundCipher) (sent : Bytes) (own : List Payload)
    (rec : List Nat) : Prop :=
  sent.length = rec.sum + 20 * rec.length ∧
  ((∀ p ∈ own, ∀ c, p.contents = some c → c.length ≤ 4000013) →
    ∀ (r : ShapedReader) tail k, Matching o r.reader.cipher → EndsWith true tail k →
      SyncStreams r.reader.reader sent tail →
      ∃ peer, (r.readMany P prof rec.length).1.recorded = r.recorded ++ peer ∧ peer.Perm rec) ∧
  ((∀ p ∈ own, ∀ c, p.contents = some c → c.length < 2 ^ 24) →
    ∀ (i : InboundCipher) (s : AsyncSession) (before : List Nat) es, Matching o i → s.remaining = sent →
      s.size + rec.length ≤ polls es →
      ∃ peer, (AsyncShapedReader.run P prof ⟨⟨i, s, .initReadingLength⟩, before⟩ es).1.recorded = before ++ peer ∧
        peer.Perm rec)

theorem sent_views {o o' : OutboundCipher} {ps : List Payload} {b : Bytes} (h : Sent P prof o ps o' b) :
    ∀ p ∈ ps, ∃ v, p.view = some v := by
  induction h with
  | nil => simp
  | cons hv _ _ ih =>
    intro p hp
    rcases List.mem_cons.1 hp with rfl | hp
    · exact ⟨_, hv⟩
    · exact ih p hp

theorem Serial.accountedFor (hP : Lawful P) {f : Flavour} {tr : List (Job × Outcome ProtocolError Unit)}
    {ws0 ws1 : WriterState R} (h : Serial f P prof ws0 tr ws1) (hok : ∀ x ∈ tr, x.2 = .ok ()) :
    ∃ sent rec, ws1.writer.writer.out = ws0.writer.writer.out ++ sent ∧ ws1.recorded = ws0.recorded ++ rec ∧
      AccountedFor P prof ws0.writer.cipher sent (writtenBy tr) rec := by
  obtain ⟨m, sent, rec, g1, g2, ⟨g3, g4⟩, g5, g6⟩ := h.accounted hok
  have hms : (m.map (·.2)).map Payload.size = m.map (·.2.size) := by rw [List.map_map]; rfl
  have hlen : rec.length = m.length := by rw [g6.length_eq, List.length_map]
  refine ⟨sent, rec, g2, g5, ?_, ?_, ?_⟩
  · rw [g1.length hP, hms, ← wireLength_perm g6]; rfl
  · intro hsize r tail k hm hend hs
    obtain ⟨r', outs, e1, e2, e3, -, e5⟩ := sync_delivers hP hend g1
      (marked_sizes (by omega) g3 g4 hsize) hm (more := []) (by rw [List.append_nil]; exact hs)
    rw [List.length_map] at e1
    refine ⟨(payloads outs).map Payload.size, ?_, ?_⟩
    · rw [C55_reads, hlen, e1]
    · rw [sizes_of_seen e2 (sent_views g1), hms]; exact g6.symm
  · intro hsize i s before es hm hs hpolls
    obtain ⟨ms, h1, h2⟩ := sent_backlog g1 (fun p hp c hc => Nat.lt_of_le_of_lt
      (marked_sizes (B := 2 ^ 24 - 1) (by omega) g3 g4
        (fun p hp c hc => by have := hsize p hp c hc; omega) p hp c hc) (by omega))
    have hl : ms.length = m.length := by simpa using (congrArg List.length h1).symm
    obtain ⟨r', outs, done, rest, e1, e2, e3, -, e5, e6⟩ := run_inv (prof := prof) hP es
      ⟨i, s, .initReadingLength⟩ ms ⟨rfl, by omega, _, hm, by simpa [hs] using h2⟩
    have : rest = [] := e6 (by simp only; omega)
    rw [this, List.append_nil] at e2
    refine ⟨(payloads outs).map Payload.size, ?_, ?_⟩
    · rw [C55_reads_async, e1]
    · rw [sizes_of_views (ps := m.map (·.2)) (by rw [e3, h1, e2]), hms]; exact g6.symm

/-- C55, threads, on a transport that takes everything.  Whenever the lock is free (and nothing has panicked, see
`C36_no_panic`), the bytes sent are exactly those recorded and twenty per recorded message, and a peer that reads them all
records the same messages. -/
theorem C55_exact (hP : Lawful P) {s0 : ShapedSys R} (h0 : s0.Fresh)
    (hw : s0.ws.writer.writer.Reliable true) (ls : List SysLabel)
    (hfree : (s0.run P prof ls).owner = none) (hnp : (s0.run P prof ls).poisoned = false) :
    ∃ sent rec, (s0.run P prof ls).ws.writer.writer.out = s0.ws.writer.writer.out ++ sent ∧
      (s0.run P prof ls).ws.recorded = s0.ws.recorded ++ rec ∧
      AccountedFor P prof s0.ws.writer.cipher sent ((s0.run P prof ls).returned.map (·.1)) rec := by
  have hI := (h0.inv (P := P) (prof := prof)).run ls
  generalize hs : s0.run P prof ls = s at hI hfree hnp ⊢
  obtain ⟨hc, hI⟩ := hI
  rcases hI with ⟨tr, qs, h⟩ | ⟨tr, p, pc, h, -⟩ | ⟨tr, pc, h, -⟩
  · obtain ⟨-, -, -, hser, hret, hpo, hq, -⟩ := h
    have hok : ∀ x ∈ tr, x.2 = .ok () := by
      intro x hx
      rcases hser.reliable hw x hx with h | h
      · exact h
      · have : s.poisoned = true := hpo.2 ⟨x, hx, h⟩
        rw [hnp] at this; cases this
    rw [hq hnp, List.map_nil, List.append_nil] at hret
    rw [hret]
    exact hser.accountedFor hP hok
  · rw [hfree] at h; cases h
  · rw [hfree] at h; cases h

/-- C55, task: the same whenever the task waits for something to do; `written` is a beginning of the calls. -/
theorem C55_exact_task (hP : Lawful P) {s0 : AsyncShapedSys R} (h0 : s0.Fresh)
    (hw : s0.ws.writer.writer.Reliable false) (ls : List AsyncLabel) {a b : Bool}
    (hwait : (s0.run P prof ls).task = .select a b) :
    ∃ sent rec written, (s0.run P prof ls).ws.writer.writer.out = s0.ws.writer.writer.out ++ sent ∧
      (s0.run P prof ls).ws.recorded = s0.ws.recorded ++ rec ∧ written <+: (s0.run P prof ls).called ∧
      AccountedFor P prof s0.ws.writer.cipher sent written rec := by
  have hI := (h0.inv (P := P) (prof := prof)).run ls
  generalize hs : s0.run P prof ls = s at hI hwait ⊢
  obtain ⟨tr, hnp, hans, -, hI⟩ := hI
  rcases hI with ⟨off, rest, h1, h2, h3, h4⟩ | ⟨_, _, _, h1, -⟩ | ⟨_, _, h1, -⟩ | ⟨_, _, h1, -⟩
  · have hok : ∀ x ∈ tr, x.2 = .ok () := by
      intro x hx
      rcases h2.reliable hw x hx with h | h
      · exact h
      · exact absurd h (hnp x hx)
    obtain ⟨sent, rec, g1, g2, g3⟩ := h2.accountedFor hP hok
    exact ⟨sent, rec, writtenBy tr, g1, g2, ⟨rest, h3.symm⟩, g3⟩
  · rw [hwait] at h1; cases h1
  · rw [hwait] at h1; cases h1
  · rw [hwait] at h1; cases h1

/-! ## The handshake -/

theorem genDecoys_recorded (R : Rng) (n : Nat) (s : R.State) :
    (genDecoys R n s).2.2 = (genDecoys R n s).2.1.map List.length := by
  induction n generalizing s with
  | zero => rfl
  | succ n ih => simp only [genDecoys, List.map_cons, ih]

theorem handshake_recorded {s s' : Shaper R} {g : Option Bytes} {d : Option (List Bytes)} {rec : List Nat}
    (h : s.handshake = (s', g, d, rec)) :
    rec = g.toList.map List.length ++ (d.getD []).map List.length := by
  unfold Shaper.handshake at h
  cases hp : s.config.padding <;> cases hd : s.config.decoy <;>
    simp only [hp, hd, Prod.mk.injEq] at h <;> obtain ⟨-, rfl, rfl, rfl⟩ := h <;>
    simp [genDecoys_recorded]

theorem versionBytes_length (hP : Lawful P) (k : SessionKeyMaterial) (r : Role) (g : Option Bytes)
    (ds : List Bytes) (hterm : (k.localTerminator r).length = 16) (hn : ds.length + 1 < 2 ^ 32) :
    (Spec.versionBytes P (k.localTerminator r) (k.sendKeys r).1 (k.sendKeys r).2 (g.getD []) ds).length
      = 36 + wireLength (ds.map List.length) := by
  rw [C20_exact_length hP k r g ds hterm hn]
  have : ∀ l : List Bytes, (l.map fun d => d.length + 20).sum = wireLength (l.map List.length) := by
    intro l
    induction l with
    | nil => rfl
    | cons d l ih =>
      simp only [List.map_cons, List.sum_cons, ih, wireLength, List.length_cons]; omega
  rw [this]

/-- C55, handshake.  The garbage and the contents of the decoys are recorded as written.  In all, the handshake sends
100 bytes (key, terminator, version packet) and 20 per decoy more than the record says. -/
theorem C55_handshake (hP : Lawful P) {magic rngI rngR : Bytes} {sI sI' sR sR' : Shaper R} {gI gR : Option Bytes}
    {dI dR : Option (List Bytes)} {recI recR : List Nat} (hI : sI.handshake = (sI', gI, dI, recI))
    (hR : sR.handshake = (sR', gR, dR, recR)) (H : HonestPair P prof magic rngI rngR gI gR dI dR) :
    (wireI P magic rngI rngR gI dI).length = 100 + recI.sum + 20 * (dI.getD []).length ∧
    (wireR P magic rngI rngR gR dR).length = 100 + recR.sum + 20 * (dR.getD []).length := by
  obtain ⟨K, h1, -, -, -, -, h6, h7⟩ := pair_keys hP H.newI.1 H.newR.1
    H.magicI H.magicR
  have hs : ∀ (g : Option Bytes) (ds : List Bytes), (g.toList.map List.length ++ ds.map List.length).sum
      = (g.getD []).length + (ds.map List.length).sum := by
    intro g ds
    cases g <;> simp
  have e1 := versionBytes_length hP K .initiator gI (dI.getD []) (h1 _) H.countI
  have e2 := versionBytes_length hP K .responder gR (dR.getD []) (h1 _) H.countR
  rw [h6, h7, handshake_recorded hI, handshake_recorded hR, hs, hs]
  constructor
  · rw [List.length_append, List.length_append, hP.ellswift_length]
    erw [e1]
    simp only [wireLength, List.length_map]; omega
  · rw [List.length_append, List.length_append, hP.ellswift_length]
    erw [e2]
    simp only [wireLength, List.length_map]; omega

/-- What the peer sends during its handshake is not recorded as read, whatever it is. -/
theorem C55_handshake_not_read {magic rng : Bytes} {role : Role} {config : TrafficConfig} {g : R.State}
    {reader : Source} {writer : Sink} :
    (∀ s0, ShapedSys.new (R := R) P prof magic role rng config g reader writer = .ok s0 →
      s0.reader.recorded = [] ∧ s0.ws.recorded = (Shaper.handshake (R := R) ⟨config, g⟩).2.2.2) ∧
    (∀ s0, AsyncShapedSys.new (R := R) P prof magic role rng config g reader writer = .ok s0 →
      s0.reader.recorded = [] ∧ s0.ws.recorded = (Shaper.handshake (R := R) ⟨config, g⟩).2.2.2) := by
  constructor
  · intro s0 h
    unfold ShapedSys.new at h
    cases hs : Shaper.handshake (R := R) ⟨config, g⟩ with
    | mk sh x =>
    obtain ⟨ga, de, rec⟩ := x
    simp only [hs] at h
    cases hp : SyncProtocol.new P prof magic role rng ga de reader writer with
    | ok p => simp only [hp, Outcome.ok.injEq] at h; subst h; exact ⟨rfl, rfl⟩
    | err e => simp [hp] at h
    | panic => simp [hp] at h
  · intro s0 h
    unfold AsyncShapedSys.new at h
    cases hs : Shaper.handshake (R := R) ⟨config, g⟩ with
    | mk sh x =>
    obtain ⟨ga, de, rec⟩ := x
    simp only [hs] at h
    cases hp : AsyncProtocol.new P prof magic role rng ga de reader writer with
    | ok p => simp only [hp, Outcome.ok.injEq] at h; subst h; exact ⟨rfl, rfl⟩
    | err e => simp [hp] at h
    | panic => simp [hp] at h

/-! ## Failing transports -/

/-- C55: equality fails if the transport does.  The transport takes nothing, the write returns an error, and both the
padding decoy and the payload count as written. -/
theorem C55_failed_counterexample :
    let s0 : ShapedSys listRng := .init
      ⟨⟨sampleIn, ⟨[], false, []⟩⟩, ⟨sampleOut, ⟨[.fail .brokenPipe], [], []⟩⟩⟩ ⟨⟨.random, .disabled⟩, [4]⟩ []
    let s := s0.run toy .debug (.call (.genuine [1, 2]) :: List.replicate 16 .app)
    s0.Fresh ∧ s.owner = none ∧ s.returned = [(.genuine [1, 2], .err (.io .brokenPipe .abort))] ∧
      s.ws.writer.writer.out = [] ∧ s.ws.recorded = [2, 4] :=
  ⟨ShapedSys.init_fresh _ _ _, by decide +kernel, by decide +kernel, by decide +kernel, by decide +kernel⟩

/-! ## Cases -/

/-- The sample session: two application writes with padding and two cover decoys; 6 messages of 20 bytes in all.  (One
byte was in the transport before.) -/
example :
    sampleSys.Fresh ∧ sampleSys.ws.writer.writer.Reliable true ∧
    (sampleSys.run toy .debug sampleSchedule).owner = none ∧
    (sampleSys.run toy .debug sampleSchedule).poisoned = false ∧
    (sampleSys.run toy .debug sampleSchedule).ws.recorded = sampleSys.ws.recorded ++ [2, 3, 3, 1, 1, 10] ∧
    (sampleSys.run toy .debug sampleSchedule).ws.writer.writer.out.length =
      sampleSys.ws.writer.writer.out.length + (20 + 20 * 6) :=
  ⟨ShapedSys.init_fresh _ _ _, by simp [sampleSys, ShapedSys.init, Sink.Reliable], by decide +kernel, by decide +kernel,
    by decide +kernel, by decide +kernel⟩

/-- And its peer's record. -/
example : (ShapedReader.readMany toy .debug ⟨⟨sampleIn, ⟨[], false,
      [.data ((sampleSys.run toy .debug sampleSchedule).ws.writer.writer.out.drop 1)]⟩⟩, []⟩ 7).1.recorded =
    [2, 3, 3, 1, 10, 1] := by
  decide +kernel

/-- The asynchronous sample session waits in `select!` at its end. -/
example : sampleTask.Fresh ∧ sampleTask.ws.writer.writer.Reliable false ∧
    (∃ a b, (sampleTask.run toy .debug sampleTaskSchedule).task = .select a b) ∧
    (sampleTask.run toy .debug sampleTaskSchedule).ws.writer.writer.out ≠ sampleTask.ws.writer.writer.out :=
  ⟨AsyncShapedSys.init_fresh _ _ _, by simp [sampleTask, AsyncShapedSys.init, Sink.Reliable],
    ⟨false, false, by decide +kernel⟩, by decide +kernel⟩

end Bip324
