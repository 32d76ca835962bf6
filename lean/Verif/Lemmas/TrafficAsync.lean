import Verif.Lemmas.TrafficSync

/-! # The task of `traffic/src/futures.rs`: every schedule is a sequence of whole jobs -/

namespace Bip324

variable {P : Prims} {prof : Profile} {R : Rng}

/-- Numbers the elements of a list, from `n` on. -/
def number {α : Type} : Nat → List α → List (Nat × α)
  | _, [] => []
  | n, a :: l => (n, a) :: number (n + 1) l

theorem number_append {α : Type} (n : Nat) (a b : List α) :
    number n (a ++ b) = number n a ++ number (n + a.length) b := by
  induction a generalizing n with
  | nil => rfl
  | cons x a ih => simp [number, ih, Nat.add_assoc, Nat.add_comm 1]

theorem number_lookup {α : Type} (l : List α) (n i : Nat) : (number n l).lookup (n + i) = l[i]? := by
  induction l generalizing n i with
  | nil => rfl
  | cons a l ih =>
    cases i with
    | zero => simp [number, List.lookup]
    | succ i =>
      have h : (n + (i + 1) == n) = false := by simp
      simp only [number, List.lookup, h]
      have := ih (n + 1) i
      rw [show n + (i + 1) = n + 1 + i by omega, this]
      simp

/-- Commands with consecutive numbers. -/
def cmdsOf (n : Nat) (ps : List Payload) : List WriteCommand :=
  (number n ps).map fun x => ⟨x.2, x.1⟩

theorem cmdsOf_snoc (n : Nat) (ps : List Payload) (p : Payload) :
    cmdsOf n (ps ++ [p]) = cmdsOf n ps ++ [⟨p, n + ps.length⟩] := by
  simp [cmdsOf, number_append, number]

/-- The payloads of the writes among the jobs. -/
abbrev writtenBy (tr : List (Job × Outcome ProtocolError Unit)) : List Payload :=
  (writesOf tr).map (·.1)

/-- The task waits in `select!`. -/
def AsyncShapedSys.Waits (P : Prims) (prof : Profile) (ws0 : WriterState R) (s : AsyncShapedSys R)
    (tr : List (Job × Outcome ProtocolError Unit)) : Prop :=
  ∃ off rest, s.task = .select off false ∧ Serial .async P prof ws0 tr s.ws ∧
    s.called = writtenBy tr ++ rest ∧ s.queue = cmdsOf (writtenBy tr).length rest

/-- The task executes a command. -/
def AsyncShapedSys.Writes (P : Prims) (prof : Profile) (ws0 : WriterState R) (s : AsyncShapedSys R)
    (tr : List (Job × Outcome ProtocolError Unit)) : Prop :=
  ∃ cmd pc rest, s.task = .writing cmd pc ∧
    Serial .async P prof ws0 (tr ++ [(.write cmd.payload, (pc.finish .async P prof s.ws).2)])
      (pc.finish .async P prof s.ws).1 ∧
    s.called = writtenBy tr ++ cmd.payload :: rest ∧ cmd.resultTx = (writtenBy tr).length ∧
    s.queue = cmdsOf ((writtenBy tr).length + 1) rest ∧
    ∃ ws, Serial .async P prof ws0 tr ws ∧ ws.writer.writer.out <+: s.ws.writer.writer.out

/-- The task is busy with a decoy. -/
def AsyncShapedSys.Covers (P : Prims) (prof : Profile) (ws0 : WriterState R) (s : AsyncShapedSys R)
    (tr : List (Job × Outcome ProtocolError Unit)) : Prop :=
  ∃ pc rest, s.task = .covering pc ∧
    Serial .async P prof ws0 (tr ++ [(.cover, (pc.finish .async P prof s.ws).2)])
      (pc.finish .async P prof s.ws).1 ∧
    s.called = writtenBy tr ++ rest ∧ s.queue = cmdsOf (writtenBy tr).length rest ∧
    ∃ ws, Serial .async P prof ws0 tr ws ∧ ws.writer.writer.out <+: s.ws.writer.writer.out

/-- The task has panicked. -/
def AsyncShapedSys.Dead (P : Prims) (prof : Profile) (ws0 : WriterState R) (s : AsyncShapedSys R)
    (tr : List (Job × Outcome ProtocolError Unit)) : Prop :=
  ∃ job rest, s.task = .panicked ∧ Serial .async P prof ws0 (tr ++ [(job, .panic)]) s.ws ∧
    s.called = writtenBy tr ++ rest ∧ s.queue = []

/-- What the application has seen. -/
def AsyncShapedSys.Seen (s : AsyncShapedSys R) (tr : List (Job × Outcome ProtocolError Unit)) : Prop :=
  ∃ ret gone, s.returned = ret ++ gone.map (fun p => (p, .err taskGone)) ∧
    (gone ≠ [] → s.task = .panicked) ∧
    (((∀ p rx, s.caller ≠ .waiting p rx) ∧ ret.Sublist (writesOf tr)) ∨
      ∃ p c, s.caller = .waiting p c.length ∧ s.called = c ++ [p] ∧ gone = [] ∧
        ret.Sublist ((writesOf tr).take c.length))

/-- The invariant. -/
def AsyncShapedSys.Inv (P : Prims) (prof : Profile) (ws0 : WriterState R) (s : AsyncShapedSys R) : Prop :=
  ∃ tr, (∀ x ∈ tr, x.2 ≠ .panic) ∧ s.answers = number 0 ((writesOf tr).map (·.2)) ∧ s.Seen tr ∧
    (s.Waits P prof ws0 tr ∨ s.Writes P prof ws0 tr ∨ s.Covers P prof ws0 tr ∨ s.Dead P prof ws0 tr)

/-- A system on which nothing has been done. -/
structure AsyncShapedSys.Fresh (s : AsyncShapedSys R) : Prop where
  queue : s.queue = []
  answers : s.answers = []
  task : s.task = .select false false
  caller : s.caller = .idle
  called : s.called = []
  returned : s.returned = []

theorem AsyncShapedSys.init_fresh (p : AsyncProtocol) (sh : Shaper R) (rec : List Nat) :
    (AsyncShapedSys.init p sh rec).Fresh := ⟨rfl, rfl, rfl, rfl, rfl, rfl⟩

theorem AsyncShapedSys.Fresh.inv {s : AsyncShapedSys R} (h : s.Fresh) : s.Inv P prof s.ws := by
  obtain ⟨h1, h2, h3, h4, h5, h6⟩ := h
  refine ⟨[], by simp, by simp [h2, writesOf, number], ⟨[], [], by simp [h6], by simp, .inl ⟨by simp [h4], by simp⟩⟩,
    .inl ⟨false, [], h3, .nil _ _, by simp [h5, writesOf], by simp [h1, cmdsOf, number]⟩⟩

theorem AsyncShapedSys.Seen.grow {s : AsyncShapedSys R} {tr more : List (Job × Outcome ProtocolError Unit)}
    (h : s.Seen tr) (s' : AsyncShapedSys R) (h1 : s'.returned = s.returned) (h2 : s'.caller = s.caller)
    (h3 : s'.called = s.called) (h4 : s.task = .panicked → s'.task = .panicked) :
    s'.Seen (tr ++ more) := by
  obtain ⟨ret, gone, e1, e2, e3⟩ := h
  refine ⟨ret, gone, by rw [h1, e1], fun h => h4 (e2 h), ?_⟩
  rw [h2, h3]
  rcases e3 with ⟨a, b⟩ | ⟨p, c, a, b, d, e⟩
  · exact .inl ⟨a, by rw [writesOf_append]; exact b.trans (List.sublist_append_left _ _)⟩
  · refine .inr ⟨p, c, a, b, d, e.trans ?_⟩
    rw [writesOf_append, List.take_append]
    exact List.sublist_append_left _ _

theorem AsyncShapedSys.Seen.same {s : AsyncShapedSys R} {tr : List (Job × Outcome ProtocolError Unit)}
    (h : s.Seen tr) (s' : AsyncShapedSys R) (h1 : s'.returned = s.returned) (h2 : s'.caller = s.caller)
    (h3 : s'.called = s.called) (h4 : s.task = .panicked → s'.task = .panicked) : s'.Seen tr := by
  have := h.grow (more := []) s' h1 h2 h3 h4
  rwa [List.append_nil] at this

theorem AsyncShapedSys.Inv.not_finished {ws0 : WriterState R} {s : AsyncShapedSys R}
    (h : s.Inv P prof ws0) : s.task ≠ .finished := by
  obtain ⟨tr, -, -, -, h | h | h | h⟩ := h
  · obtain ⟨_, _, h, -⟩ := h; simp [h]
  · obtain ⟨_, _, _, h, -⟩ := h; simp [h]
  · obtain ⟨_, _, h, -⟩ := h; simp [h]
  · obtain ⟨_, _, h, -⟩ := h; simp [h]

theorem AsyncShapedSys.Inv.call {ws0 : WriterState R} {s : AsyncShapedSys R} (h : s.Inv P prof ws0)
    (p : Payload) : (s.step P prof (.call p)).Inv P prof ws0 := by
  have hnf := h.not_finished
  obtain ⟨tr, hp, ha, ⟨ret, gone, e1, e2, e3⟩, h⟩ := h
  cases hc : s.caller with
  | waiting q rx =>
    have : s.step P prof (.call p) = s := by simp [AsyncShapedSys.step, hc]
    rw [this]; exact ⟨tr, hp, ha, ⟨ret, gone, e1, e2, e3⟩, h⟩
  | gone =>
    have : s.step P prof (.call p) = s := by simp [AsyncShapedSys.step, hc]
    rw [this]; exact ⟨tr, hp, ha, ⟨ret, gone, e1, e2, e3⟩, h⟩
  | idle =>
    have e3 : ret.Sublist (writesOf tr) := by
      rcases e3 with ⟨_, e⟩ | ⟨_, _, e, -⟩
      · exact e
      · rw [hc] at e; cases e
    by_cases hd : s.task = .panicked
    · have : s.step P prof (.call p) = { s with returned := s.returned ++ [(p, .err taskGone)] } := by
        simp [AsyncShapedSys.step, hc, hd, TaskPc.ended]
      rw [this]
      refine ⟨tr, hp, ha, ⟨ret, gone ++ [p], by simp [e1], fun _ => hd, .inl ⟨by simp [hc], e3⟩⟩, h⟩
    · have hne : s.task.ended = false := by
        cases ht : s.task <;> simp_all [TaskPc.ended]
      have : s.step P prof (.call p) = { s with
          queue := s.queue ++ [⟨p, s.called.length⟩], called := s.called ++ [p],
          caller := .waiting p s.called.length } := by
        simp [AsyncShapedSys.step, hc, hne]
      rw [this]
      have hg : gone = [] := by
        by_cases hg : gone = []
        · exact hg
        · exact absurd (e2 hg) hd
      have hlen : (writesOf tr).length ≤ s.called.length := by
        have : ∃ x, s.called = writtenBy tr ++ x := by
          rcases h with ⟨_, r, _, _, h, _⟩ | ⟨_, _, r, _, _, h, _⟩ | ⟨_, r, _, _, h, _⟩ | ⟨_, r, _, _, h, _⟩ <;>
            exact ⟨_, h⟩
        obtain ⟨x, hx⟩ := this
        rw [hx]; simp
      refine ⟨tr, hp, ha, ⟨ret, [], by simp [e1, hg], by simp, .inr ⟨p, s.called, rfl, rfl, rfl, ?_⟩⟩, ?_⟩
      · rw [List.take_of_length_le hlen]; exact e3
      · rcases h with ⟨off, r, h1, h2, h3, h4⟩ | ⟨cmd, pc, r, h1, h2, h3, h4, h5, h6⟩ | ⟨pc, r, h1, h2, h3, h4, h6⟩ |
          ⟨_, r, h1, _⟩
        · refine .inl ⟨off, r ++ [p], h1, h2, by simp [h3], ?_⟩
          simp only [cmdsOf_snoc, h4, h3, List.length_append]
        · refine .inr (.inl ⟨cmd, pc, r ++ [p], h1, h2, by simp [h3], h4, ?_, h6⟩)
          simp only [cmdsOf_snoc, h5, h3, List.length_append, List.length_cons]
          rw [show (writtenBy tr).length + (r.length + 1) = (writtenBy tr).length + 1 + r.length by omega]
        · refine .inr (.inr (.inl ⟨pc, r ++ [p], h1, h2, by simp [h3], ?_, h6⟩))
          simp only [cmdsOf_snoc, h4, h3, List.length_append]
        · exact absurd h1 hd

theorem AsyncShapedSys.Inv.resume {ws0 : WriterState R} {s : AsyncShapedSys R} (h : s.Inv P prof ws0) :
    (s.step P prof .resume).Inv P prof ws0 := by
  have hnf := h.not_finished
  have h0 := h
  obtain ⟨tr, hp, ha, ⟨ret, gone, e1, e2, e3⟩, h⟩ := h
  cases hc : s.caller with
  | idle =>
    have : s.step P prof .resume = s := by simp [AsyncShapedSys.step, hc]
    rw [this]; exact h0
  | gone =>
    have : s.step P prof .resume = s := by simp [AsyncShapedSys.step, hc]
    rw [this]; exact h0
  | waiting p rx =>
    rcases e3 with ⟨e, -⟩ | ⟨q, c, e, f1, f2, f3⟩
    · exact absurd hc (e p rx)
    rw [hc] at e
    cases e
    subst f2
    have hl : s.answers.lookup c.length = ((writesOf tr).map (·.2))[c.length]? := by
      have := number_lookup ((writesOf tr).map (·.2)) 0 c.length
      rw [ha]; rw [Nat.zero_add] at this; exact this
    cases hr : s.answers.lookup c.length with
    | some r =>
      have : s.step P prof .resume = { s with caller := .idle, returned := s.returned ++ [(p, r)] } := by
        simp [AsyncShapedSys.step, hc, hr]
      rw [this]
      refine ⟨tr, hp, ha, ⟨ret ++ [(p, r)], [], by simp [e1], by simp, .inl ⟨by simp, ?_⟩⟩, h⟩
      rw [hr] at hl
      -- the element of `writesOf tr` at that place
      have hx : ∃ x, s.called = writtenBy tr ++ x := by
        rcases h with ⟨_, r, _, _, h, _⟩ | ⟨_, _, r, _, _, h, _⟩ | ⟨_, r, _, _, h, _⟩ | ⟨_, r, _, _, h, _⟩ <;>
          exact ⟨_, h⟩
      obtain ⟨x, hx⟩ := hx
      have hlt : c.length < (writesOf tr).length := by
        have := (List.getElem?_eq_some_iff.1 hl.symm).1
        simpa using this
      have hp1 : (writtenBy tr)[c.length]? = some p := by
        have : s.called[c.length]? = some p := by rw [f1]; simp
        rw [hx, List.getElem?_append_left (by simpa using hlt)] at this
        exact this
      have hel : (writesOf tr)[c.length] = (p, r) := by
        rw [List.getElem?_map, List.getElem?_eq_getElem hlt] at hp1
        rw [List.getElem?_map, List.getElem?_eq_getElem hlt] at hl
        simp only [Option.map_some, Option.some.injEq] at hp1 hl
        rw [← hp1, hl]
      have hdec : writesOf tr = (writesOf tr).take c.length ++ (p, r) :: (writesOf tr).drop (c.length + 1) := by
        rw [← hel, List.getElem_cons_drop, List.take_append_drop]
      rw [hdec]
      exact List.Sublist.append f3 (by simp)
    | none =>
      by_cases hd : s.task = .panicked
      · have : s.step P prof .resume =
            { s with caller := .idle, returned := s.returned ++ [(p, .err taskGone)] } := by
          simp [AsyncShapedSys.step, hc, hr, hd, TaskPc.ended]
        rw [this]
        refine ⟨tr, hp, ha, ⟨ret, [p], by simp [e1], fun _ => hd, .inl ⟨by simp, f3.trans (List.take_sublist _ _)⟩⟩, h⟩
      · have hne : s.task.ended = false := by
          cases ht : s.task <;> simp_all [TaskPc.ended]
        have : s.step P prof .resume = s := by simp [AsyncShapedSys.step, hc, hr, hne]
        rw [this]; exact h0

theorem AsyncShapedSys.Inv.cancel {ws0 : WriterState R} {s : AsyncShapedSys R} (h : s.Inv P prof ws0) :
    (s.step P prof .cancel).Inv P prof ws0 := by
  have h0 := h
  obtain ⟨tr, hp, ha, ⟨ret, gone, e1, e2, e3⟩, h⟩ := h
  cases hc : s.caller with
  | idle =>
    have : s.step P prof .cancel = s := by simp [AsyncShapedSys.step, hc]
    rw [this]; exact h0
  | gone =>
    have : s.step P prof .cancel = s := by simp [AsyncShapedSys.step, hc]
    rw [this]; exact h0
  | waiting p rx =>
    have : s.step P prof .cancel = { s with caller := .idle } := by simp [AsyncShapedSys.step, hc]
    rw [this]
    refine ⟨tr, hp, ha, ⟨ret, gone, e1, e2, .inl ⟨by simp, ?_⟩⟩, h⟩
    rcases e3 with ⟨e, -⟩ | ⟨q, c, e, f1, f2, f3⟩
    · exact absurd hc (e p rx)
    · exact f3.trans (List.take_sublist _ _)

theorem AsyncShapedSys.Inv.drop {ws0 : WriterState R} {s : AsyncShapedSys R} (h : s.Inv P prof ws0) :
    (s.step P prof .drop).Inv P prof ws0 := by
  have h0 := h
  obtain ⟨tr, hp, ha, ⟨ret, gone, e1, e2, e3⟩, h⟩ := h
  cases hc : s.caller with
  | idle =>
    have : s.step P prof .drop = { s with caller := .gone, closed := true } := by
      simp [AsyncShapedSys.step, hc]
    rw [this]
    refine ⟨tr, hp, ha, ⟨ret, gone, e1, e2, .inl ⟨by simp, ?_⟩⟩, h⟩
    rcases e3 with ⟨_, e⟩ | ⟨q, c, e, -⟩
    · exact e
    · rw [hc] at e; cases e
  | gone =>
    have : s.step P prof .drop = s := by simp [AsyncShapedSys.step, hc]
    rw [this]; exact h0
  | waiting p rx =>
    have : s.step P prof .drop = s := by simp [AsyncShapedSys.step, hc]
    rw [this]; exact h0

theorem AsyncShapedSys.Inv.recv {ws0 : WriterState R} {s : AsyncShapedSys R} (h : s.Inv P prof ws0) :
    (s.step P prof .recv).Inv P prof ws0 := by
  by_cases hsame : s.step P prof .recv = s
  · rw [hsame]; exact h
  obtain ⟨tr, hp, ha, hseen, h⟩ := h
  rcases h with ⟨off, r, h1, h2, h3, h4⟩ | ⟨_, _, _, h1, -⟩ | ⟨_, _, h1, -⟩ | ⟨_, _, h1, -⟩
  · cases off with
    | true => exact absurd (by simp [AsyncShapedSys.step, h1]) hsame
    | false =>
      cases r with
      | nil =>
        have hq : s.queue = [] := by rw [h4]; rfl
        cases hcl : s.closed with
        | false => exact absurd (by simp [AsyncShapedSys.step, h1, hq, hcl]) hsame
        | true =>
          have : s.step P prof .recv = { s with task := .select true false } := by
            simp [AsyncShapedSys.step, h1, hq, hcl]
          rw [this]
          exact ⟨tr, hp, ha, hseen.same _ rfl rfl rfl (by simp [h1]), .inl ⟨true, [], rfl, h2, h3, h4⟩⟩
      | cons p r =>
        have hq : s.queue = ⟨p, (writtenBy tr).length⟩ :: cmdsOf ((writtenBy tr).length + 1) r := by
          rw [h4]; rfl
        have : s.step P prof .recv = { s with
            queue := cmdsOf ((writtenBy tr).length + 1) r,
            task := .writing ⟨p, (writtenBy tr).length⟩ (.start (.write p)) } := by
          simp [AsyncShapedSys.step, h1, hq]
        rw [this]
        exact ⟨tr, hp, ha, hseen.same _ rfl rfl rfl (by simp [h1]),
          .inr (.inl ⟨_, _, r, rfl, h2.snoc (.write p), h3, rfl, rfl, _, h2, List.prefix_rfl⟩)⟩
  · exact absurd (by simp [AsyncShapedSys.step, h1]) hsame
  · exact absurd (by simp [AsyncShapedSys.step, h1]) hsame
  · exact absurd (by simp [AsyncShapedSys.step, h1]) hsame

theorem AsyncShapedSys.Inv.tick {ws0 : WriterState R} {s : AsyncShapedSys R} (h : s.Inv P prof ws0) :
    (s.step P prof .tick).Inv P prof ws0 := by
  by_cases hsame : s.step P prof .tick = s
  · rw [hsame]; exact h
  obtain ⟨tr, hp, ha, hseen, h⟩ := h
  rcases h with ⟨off, r, h1, h2, h3, h4⟩ | ⟨_, _, _, h1, -⟩ | ⟨_, _, h1, -⟩ | ⟨_, _, h1, -⟩
  · have : s.step P prof .tick = { s with task := .covering (.start .cover) } := by
      simp [AsyncShapedSys.step, h1]
    rw [this]
    exact ⟨tr, hp, ha, hseen.same _ rfl rfl rfl (by simp [h1]),
      .inr (.inr (.inl ⟨_, r, rfl, h2.snoc .cover, h3, h4, _, h2, List.prefix_rfl⟩))⟩
  · exact absurd (by simp [AsyncShapedSys.step, h1]) hsame
  · exact absurd (by simp [AsyncShapedSys.step, h1]) hsame
  · exact absurd (by simp [AsyncShapedSys.step, h1]) hsame

/-- The `else` branch is never taken. -/
theorem AsyncShapedSys.Inv.otherwise {ws0 : WriterState R} {s : AsyncShapedSys R}
    (h : s.Inv P prof ws0) : s.step P prof .otherwise = s := by
  obtain ⟨tr, hp, ha, hseen, h⟩ := h
  rcases h with ⟨off, r, h1, h2, h3, h4⟩ | ⟨_, _, _, h1, -⟩ | ⟨_, _, h1, -⟩ | ⟨_, _, h1, -⟩ <;>
    simp [AsyncShapedSys.step, h1]

theorem AsyncShapedSys.Inv.task {ws0 : WriterState R} {s : AsyncShapedSys R} (h : s.Inv P prof ws0) :
    (s.step P prof .task).Inv P prof ws0 := by
  by_cases hsame : s.step P prof .task = s
  · rw [hsame]; exact h
  obtain ⟨tr, hp, ha, hseen, h⟩ := h
  rcases h with ⟨off, r, h1, -⟩ | ⟨cmd, pc, r, h1, h2, h3, h4, h5, h6⟩ | ⟨pc, r, h1, h2, h3, h4, h6⟩ | ⟨_, _, h1, -⟩
  · exact absurd (by simp [AsyncShapedSys.step, AsyncShapedSys.taskStep, h1]) hsame
  · rcases pc.done_or with ⟨x, rfl⟩ | hd
    · by_cases hx : x = .panic
      · subst hx
        have : s.step P prof .task = { s with task := .panicked, queue := [] } := by
          simp [AsyncShapedSys.step, AsyncShapedSys.taskStep, h1]
        rw [this]
        exact ⟨tr, hp, ha, hseen.same _ rfl rfl rfl (by simp), .inr (.inr (.inr ⟨_, _, rfl, h2, h3, rfl⟩))⟩
      · have : s.step P prof .task = { s with
            task := .select false false, answers := s.answers ++ [(cmd.resultTx, x)] } := by
          simp [AsyncShapedSys.step, AsyncShapedSys.taskStep, h1, hx]
        rw [this]
        have hw : writesOf (tr ++ [(.write cmd.payload, x)]) = writesOf tr ++ [(cmd.payload, x)] := by
          rw [writesOf_append]; rfl
        refine ⟨tr ++ [(.write cmd.payload, x)], ?_, ?_, hseen.grow _ rfl rfl rfl (by simp [h1]),
          .inl ⟨false, r, rfl, h2, ?_, ?_⟩⟩
        · intro y hy
          rcases List.mem_append.1 hy with hy | hy
          · exact hp y hy
          · rw [List.mem_singleton.1 hy]; exact hx
        · simp only [hw, List.map_append, number_append, ha, h4]
          simp [number]
        · simp [writtenBy, hw, h3]
        · simp [writtenBy, hw, h5]
    · have : s.step P prof .task = { s with
          ws := (pc.step .async P prof s.ws).1,
          task := .writing cmd (pc.step .async P prof s.ws).2 } := by
        cases pc with
        | done x => exact absurd rfl (hd x)
        | _ => simp [AsyncShapedSys.step, AsyncShapedSys.taskStep, h1]
      rw [this]
      refine ⟨tr, hp, ha, hseen.same _ rfl rfl rfl (by simp [h1]),
        .inr (.inl ⟨cmd, _, r, rfl, ?_, h3, h4, h5, ?_⟩)⟩
      · simp only [JobPc.step_finish]
        exact h2
      · obtain ⟨ws, k1, k2⟩ := h6
        exact ⟨ws, k1, k2.trans (JobPc.step_out .async s.ws pc)⟩
  · rcases pc.done_or with ⟨x, rfl⟩ | hd
    · by_cases hx : x = .panic
      · subst hx
        have : s.step P prof .task = { s with task := .panicked, queue := [] } := by
          simp [AsyncShapedSys.step, AsyncShapedSys.taskStep, h1]
        rw [this]
        exact ⟨tr, hp, ha, hseen.same _ rfl rfl rfl (by simp), .inr (.inr (.inr ⟨_, _, rfl, h2, h3, rfl⟩))⟩
      · have : s.step P prof .task = { s with task := .select false false } := by
          simp [AsyncShapedSys.step, AsyncShapedSys.taskStep, h1, hx]
        rw [this]
        have hw : writesOf (tr ++ [(.cover, x)]) = writesOf tr := by
          rw [writesOf_append]; simp [writesOf]
        refine ⟨tr ++ [(.cover, x)], ?_, ?_, hseen.grow _ rfl rfl rfl (by simp [h1]),
          .inl ⟨false, r, rfl, h2, ?_, ?_⟩⟩
        · intro y hy
          rcases List.mem_append.1 hy with hy | hy
          · exact hp y hy
          · rw [List.mem_singleton.1 hy]; exact hx
        · simp only [hw, ha]
        · simp [writtenBy, hw, h3]
        · simp [writtenBy, hw, h4]
    · have : s.step P prof .task = { s with
          ws := (pc.step .async P prof s.ws).1,
          task := .covering (pc.step .async P prof s.ws).2 } := by
        cases pc with
        | done x => exact absurd rfl (hd x)
        | _ => simp [AsyncShapedSys.step, AsyncShapedSys.taskStep, h1]
      rw [this]
      refine ⟨tr, hp, ha, hseen.same _ rfl rfl rfl (by simp [h1]),
        .inr (.inr (.inl ⟨_, r, rfl, ?_, h3, h4, ?_⟩))⟩
      · simp only [JobPc.step_finish]
        exact h2
      · obtain ⟨ws, k1, k2⟩ := h6
        exact ⟨ws, k1, k2.trans (JobPc.step_out .async s.ws pc)⟩
  · exact absurd (by simp [AsyncShapedSys.step, AsyncShapedSys.taskStep, h1]) hsame

theorem AsyncShapedSys.Inv.step {ws0 : WriterState R} {s : AsyncShapedSys R} (h : s.Inv P prof ws0)
    (l : AsyncLabel) : (s.step P prof l).Inv P prof ws0 := by
  cases l with
  | call p => exact h.call p
  | resume => exact h.resume
  | cancel => exact h.cancel
  | drop => exact h.drop
  | recv => exact h.recv
  | tick => exact h.tick
  | otherwise => rw [h.otherwise]; exact h
  | task => exact h.task
  | read => exact h

theorem AsyncShapedSys.Inv.run {ws0 : WriterState R} {s : AsyncShapedSys R} (h : s.Inv P prof ws0)
    (ls : List AsyncLabel) : (s.run P prof ls).Inv P prof ws0 := by
  induction ls generalizing s with
  | nil => exact h
  | cons l ls ih => exact ih (h.step l)

end Bip324
