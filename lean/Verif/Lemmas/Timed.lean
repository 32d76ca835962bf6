import Verif.Model.Timed
import Verif.Lemmas.TrafficSound
import Verif.Lemmas.TrafficWire
import Verif.Lemmas.Session

/-! # Lemmas on the shaped protocols with a clock -/

namespace Bip324

variable {P : Prims} {prof : Profile} {R : Rng}

/-! ## How many bytes a job can still send -/

/-- What a payload is on the wire. -/
def wireLen (p : Payload) : Nat := (p.contents.getD []).length + 20

/-- The most a padding decoy can add. -/
def padMax (c : TrafficConfig) : Nat := if c.padding = .random then 1044 else 0

/-- The most a cover decoy can be. -/
def coverMax (c : TrafficConfig) : Nat := if c.decoy = .random then 1044 else 0

def WProc.space : WProc → Nat
  | .start p => wireLen p
  | .sending rest => rest.length
  | .flushing => 0
  | .done _ => 0

def JobPc.space (c : TrafficConfig) : JobPc → Nat
  | .start (.write p) => wireLen p + padMax c
  | .start .cover => coverMax c
  | .padding w p => w.space + wireLen p
  | .payload w => w.space
  | .cover w => w.space
  | .done _ => 0

theorem WProc.step_space (hP : Lawful P) (f : Flavour) (w : Writer) (pc : WProc) :
    (pc.step f P prof w).1.writer.out.length + (pc.step f P prof w).2.space ≤
      w.writer.out.length + pc.space := by
  cases pc with
  | start p =>
    simp only [WProc.step]
    split
    · rename_i c ty hc ht
      cases he : w.cipher.encryptToVec P prof c ty none with
      | mk c' x =>
      cases x with
      | ok packet =>
        have := packet_length hP he
        simp only [WProc.space, wireLen, hc, Option.getD_some]
        omega
      | err e => simp [WProc.space]
      | panic => simp [WProc.space]
    · simp [WProc.space]
  | sending rest =>
    cases rest with
    | nil => simp [WProc.step, WProc.space]
    | cons b bs =>
      simp only [WProc.step]
      split
      · simp only [WProc.space, List.length_append, List.length_nil]; omega
      · exact Nat.le_refl _
      · split
        · exact Nat.le_refl _
        · simp [WProc.space]
      · simp [WProc.space]
      · simp only [WProc.space, List.length_append, List.length_take, List.length_drop]; omega
  | flushing =>
    have := flush_out w.writer
    simp only [WProc.step]
    cases hs : w.writer.flush with
    | mk s x =>
    rw [hs] at this
    have this : s.out = w.writer.out := this
    cases x <;> (simp only [WProc.space]; rw [this]; exact Nat.le_refl _)
  | done r => exact Nat.le_refl _

theorem ShaperDecoy.wireLen_le {p : Payload} (h : ShaperDecoy p) : wireLen p ≤ 1044 := by
  obtain ⟨n, -, h2, rfl⟩ := h
  show (zeros n).length + 20 ≤ 1044
  simp [zeros]; omega

theorem JobPc.step_space (hP : Lawful P) (f : Flavour) (ws : WriterState R) (pc : JobPc) :
    (pc.step f P prof ws).1.writer.writer.out.length + (pc.step f P prof ws).2.space ws.shaper.config ≤
        ws.writer.writer.out.length + pc.space ws.shaper.config ∧
      (pc.step f P prof ws).1.shaper.config = ws.shaper.config := by
  have hw := fun w => WProc.step_space (prof := prof) hP f ws.writer w
  cases pc with
  | start job =>
    cases job with
    | write p =>
      simp only [JobPc.step]
      cases h : ws.shaper.pad p with
      | none => exact ⟨by simp [JobPc.space], rfl⟩
      | some x =>
        obtain ⟨sh, d, r⟩ := x
        obtain ⟨-, h1, h2, -, h3⟩ := pad_some h
        cases d with
        | none => exact ⟨by simp [JobPc.space, WProc.space], h1⟩
        | some d =>
          refine ⟨?_, h1⟩
          have := (h3 d rfl).wireLen_le
          have hr : padMax ws.shaper.config = 1044 := by
            cases hs : ws.shaper.config.padding with
            | disabled => cases (h2 hs).1
            | random => simp [padMax, hs]
          simp only [JobPc.space, WProc.space, hr]
          omega
    | cover =>
      simp only [JobPc.step]
      cases h : ws.shaper.decoy with
      | mk sh x =>
      obtain ⟨d, r⟩ := x
      obtain ⟨h1, h2, h3⟩ := decoy_some h
      cases d with
      | none => exact ⟨by simp [JobPc.space], h1⟩
      | some d =>
        refine ⟨?_, h1⟩
        have := (h3 d rfl).wireLen_le
        have hr : coverMax ws.shaper.config = 1044 := by
          cases hs : ws.shaper.config.decoy with
          | disabled => cases (h2 hs).1
          | random => simp [coverMax, hs]
        simp only [JobPc.space, WProc.space, hr]
        omega
  | padding w p =>
    cases w with
    | done r => cases r <;> exact ⟨by simp [JobPc.step, JobPc.space, WProc.space], rfl⟩
    | start q => have := hw (.start q); exact ⟨by simp only [JobPc.step, JobPc.space]; omega, rfl⟩
    | sending b => have := hw (.sending b); exact ⟨by simp only [JobPc.step, JobPc.space]; omega, rfl⟩
    | flushing => have := hw .flushing; exact ⟨by simp only [JobPc.step, JobPc.space]; omega, rfl⟩
  | payload w =>
    cases w with
    | done r => exact ⟨by simp [JobPc.step, JobPc.space, WProc.space], rfl⟩
    | start q => exact ⟨hw (.start q), rfl⟩
    | sending b => exact ⟨hw (.sending b), rfl⟩
    | flushing => exact ⟨hw .flushing, rfl⟩
  | cover w =>
    cases w with
    | done r => exact ⟨by simp [JobPc.step, JobPc.space, WProc.space], rfl⟩
    | start q => exact ⟨hw (.start q), rfl⟩
    | sending b => exact ⟨hw (.sending b), rfl⟩
    | flushing => exact ⟨hw .flushing, rfl⟩
  | done r => exact ⟨Nat.le_refl _, rfl⟩

/-- The most that written payloads can be on the wire. -/
def writtenMax (c : TrafficConfig) : List Payload → Nat
  | [] => 0
  | p :: ps => wireLen p + padMax c + writtenMax c ps

theorem writtenMax_append (c : TrafficConfig) (a b : List Payload) :
    writtenMax c (a ++ b) = writtenMax c a + writtenMax c b := by
  induction a with
  | nil => simp [writtenMax]
  | cons x xs ih => simp only [List.cons_append, writtenMax, ih]; omega

/-! ## The thread -/

def AppPc.space (c : TrafficConfig) : AppPc → Nat
  | .locking p => wireLen p + padMax c
  | .writing _ pc => pc.space c
  | _ => 0

def BgPc.space (c : TrafficConfig) : BgPc → Nat
  | .covering pc => pc.space c
  | _ => 0

def ShapedSys.space (c : TrafficConfig) (s : ShapedSys R) : Nat :=
  s.ws.writer.writer.out.length + s.app.space c + s.bg.space c

/-- A step spends no more than what the application asks for and a cover decoy for each attempt. -/
theorem ShapedSys.step_space (hP : Lawful P) {c : TrafficConfig} {s : ShapedSys R} (hc : s.ws.shaper.config = c)
    (l : SysLabel) :
    (s.step P prof l).ws.shaper.config = c ∧
    (s.step P prof l).space c + writtenMax c s.called ≤
      s.space c + writtenMax c (s.step P prof l).called +
        (if l = .bg ∧ s.bg = .trying then coverMax c else 0) := by
  have hj := fun pc => JobPc.step_space (prof := prof) hP .sync s.ws pc
  rw [hc] at hj
  cases l with
  | call p =>
    simp only [ShapedSys.step]
    split
    · rename_i ha
      refine ⟨hc, ?_⟩
      simp only [ShapedSys.space, ha, AppPc.space, writtenMax_append, writtenMax]
      omega
    · exact ⟨hc, by omega⟩
  | drop =>
    simp only [ShapedSys.step]
    split
    · rename_i ha
      refine ⟨hc, ?_⟩
      simp only [ShapedSys.space, ha, AppPc.space]
      omega
    · exact ⟨hc, by omega⟩
  | read => exact ⟨hc, by simp only [ShapedSys.step, ShapedSys.space]; omega⟩
  | app =>
    show (s.appStep P prof).ws.shaper.config = c ∧ (s.appStep P prof).space c + _ ≤ s.space c +
      writtenMax c (s.appStep P prof).called + _
    cases ha : s.app with
    | idle => simp [ShapedSys.appStep, ha, hc]
    | gone => simp [ShapedSys.appStep, ha, hc]
    | joining =>
      rcases app_joins (P := P) (prof := prof) ha with he | ⟨he, -⟩
      · rw [he]; exact ⟨hc, by omega⟩
      · rw [he]; exact ⟨hc, by simp only [ShapedSys.space, ha, AppPc.space]; omega⟩
    | locking p =>
      cases ho : s.owner with
      | some t => rw [app_blocked ha ho]; exact ⟨hc, by omega⟩
      | none =>
        cases hp : s.poisoned with
        | true =>
          rw [app_poisoned ha ho hp]
          exact ⟨hc, by simp only [ShapedSys.space, ha, AppPc.space]; omega⟩
        | false =>
          rw [app_locks ha ho hp]
          exact ⟨hc, by simp only [ShapedSys.space, ha, AppPc.space, JobPc.space]; omega⟩
    | writing p pc =>
      rcases pc.done_or with ⟨r, rfl⟩ | hd
      · rw [app_returns ha]
        exact ⟨hc, by simp only [ShapedSys.space, ha, AppPc.space]; omega⟩
      · rw [app_writes ha hd]
        have := hj pc
        exact ⟨this.2, by simp only [ShapedSys.space, ha, AppPc.space]; omega⟩
  | bg =>
    show (s.bgStep P prof).ws.shaper.config = c ∧ (s.bgStep P prof).space c + _ ≤ s.space c +
      writtenMax c (s.bgStep P prof).called + _
    cases hb : s.bg with
    | finished => simp [ShapedSys.bgStep, hb, hc]
    | panicked => simp [ShapedSys.bgStep, hb, hc]
    | checking =>
      have : s.bgStep P prof = { s with bg := if s.shutdown then .finished else .sleeping } := by
        simp [ShapedSys.bgStep, hb]
      rw [this]
      refine ⟨hc, ?_⟩
      simp only [ShapedSys.space]
      cases s.shutdown <;> simp [hb, BgPc.space]
    | sleeping =>
      have : s.bgStep P prof = { s with bg := .trying } := by simp [ShapedSys.bgStep, hb]
      rw [this]
      refine ⟨hc, ?_⟩
      simp [ShapedSys.space, hb, BgPc.space]
    | trying =>
      cases ho : s.owner with
      | some t => rw [bg_blocked hb ho]; exact ⟨hc, by simp only [ShapedSys.space, hb, BgPc.space]; omega⟩
      | none =>
        cases hp : s.poisoned with
        | true =>
          rw [bg_poisoned hb ho hp]
          exact ⟨hc, by simp only [ShapedSys.space, hb, BgPc.space]; omega⟩
        | false =>
          rw [bg_locks hb ho hp]
          exact ⟨hc, by simp only [ShapedSys.space, hb, BgPc.space, JobPc.space, and_self, if_true]; omega⟩
    | covering pc =>
      rcases pc.done_or with ⟨r, rfl⟩ | hd
      · rw [bg_unlocks hb]
        refine ⟨hc, ?_⟩
        cases r <;> simp [ShapedSys.space, hb, BgPc.space]
      · rw [bg_writes hb hd]
        have := hj pc
        exact ⟨this.2, by simp only [ShapedSys.space, hb, BgPc.space]; omega⟩

/-! ## The task -/

def TaskPc.space (c : TrafficConfig) : TaskPc → Nat
  | .writing _ pc => pc.space c
  | .covering pc => pc.space c
  | _ => 0

def AsyncShapedSys.space (c : TrafficConfig) (s : AsyncShapedSys R) : Nat :=
  s.ws.writer.writer.out.length + writtenMax c (s.queue.map (·.payload)) + s.task.space c

theorem AsyncShapedSys.step_space (hP : Lawful P) {c : TrafficConfig} {s : AsyncShapedSys R}
    (hc : s.ws.shaper.config = c) (l : AsyncLabel) :
    (s.step P prof l).ws.shaper.config = c ∧
    (s.step P prof l).space c + writtenMax c s.called ≤
      s.space c + writtenMax c (s.step P prof l).called + (if l = .tick then coverMax c else 0) := by
  have hj := fun pc => JobPc.step_space (prof := prof) hP .async s.ws pc
  rw [hc] at hj
  cases l with
  | call p =>
    simp only [AsyncShapedSys.step]
    split
    · split
      · exact ⟨hc, by simp only [AsyncShapedSys.space]; omega⟩
      · refine ⟨hc, ?_⟩
        simp only [AsyncShapedSys.space, writtenMax_append, writtenMax, List.map_append, List.map_cons, List.map_nil]
        omega
    · exact ⟨hc, by omega⟩
  | resume =>
    simp only [AsyncShapedSys.step]
    split
    · split
      · exact ⟨hc, by simp only [AsyncShapedSys.space]; omega⟩
      · split
        · exact ⟨hc, by simp only [AsyncShapedSys.space]; omega⟩
        · exact ⟨hc, by omega⟩
    · exact ⟨hc, by omega⟩
  | cancel =>
    simp only [AsyncShapedSys.step]
    split
    · exact ⟨hc, by simp only [AsyncShapedSys.space]; omega⟩
    · exact ⟨hc, by omega⟩
  | drop =>
    simp only [AsyncShapedSys.step]
    split
    · exact ⟨hc, by simp only [AsyncShapedSys.space]; omega⟩
    · exact ⟨hc, by omega⟩
  | read => exact ⟨hc, by simp only [AsyncShapedSys.step, AsyncShapedSys.space]; omega⟩
  | recv =>
    simp only [AsyncShapedSys.step]
    split
    · rename_i ht
      split
      · rename_i cmd q hq
        refine ⟨hc, ?_⟩
        simp only [AsyncShapedSys.space, hq, ht, TaskPc.space, JobPc.space, List.map_cons, writtenMax]
        omega
      · split
        · exact ⟨hc, by simp only [AsyncShapedSys.space, ht, TaskPc.space]; omega⟩
        · exact ⟨hc, by omega⟩
    · exact ⟨hc, by omega⟩
  | tick =>
    simp only [AsyncShapedSys.step]
    split
    · rename_i ht
      refine ⟨hc, ?_⟩
      simp only [AsyncShapedSys.space, ht, TaskPc.space, JobPc.space, if_true]
      omega
    · exact ⟨hc, by omega⟩
  | otherwise =>
    simp only [AsyncShapedSys.step]
    split
    · rename_i ht
      exact ⟨hc, by simp only [AsyncShapedSys.space, ht, TaskPc.space]; omega⟩
    · exact ⟨hc, by omega⟩
  | task =>
    show (s.taskStep P prof).ws.shaper.config = c ∧ (s.taskStep P prof).space c + _ ≤ s.space c +
      writtenMax c (s.taskStep P prof).called + _
    cases ht : s.task with
    | select a b => simp [AsyncShapedSys.taskStep, ht, hc]
    | finished => simp [AsyncShapedSys.taskStep, ht, hc]
    | panicked => simp [AsyncShapedSys.taskStep, ht, hc]
    | writing cmd pc =>
      rcases pc.done_or with ⟨r, rfl⟩ | hd
      · simp only [AsyncShapedSys.taskStep, ht]
        split
        · exact ⟨hc, by simp only [AsyncShapedSys.space, ht, TaskPc.space, List.map_nil, writtenMax]; omega⟩
        · exact ⟨hc, by simp only [AsyncShapedSys.space, ht, TaskPc.space]; omega⟩
      · have he : s.taskStep P prof = { s with
            ws := (pc.step .async P prof s.ws).1, task := .writing cmd (pc.step .async P prof s.ws).2 } := by
          cases pc with
          | done r => exact absurd rfl (hd r)
          | _ => simp [AsyncShapedSys.taskStep, ht]
        have := hj pc
        rw [he]
        exact ⟨this.2, by simp only [AsyncShapedSys.space, ht, TaskPc.space]; omega⟩
    | covering pc =>
      rcases pc.done_or with ⟨r, rfl⟩ | hd
      · simp only [AsyncShapedSys.taskStep, ht]
        split
        · exact ⟨hc, by simp only [AsyncShapedSys.space, ht, TaskPc.space, List.map_nil, writtenMax]; omega⟩
        · exact ⟨hc, by simp only [AsyncShapedSys.space, ht, TaskPc.space]; omega⟩
      · have he : s.taskStep P prof = { s with
            ws := (pc.step .async P prof s.ws).1, task := .covering (pc.step .async P prof s.ws).2 } := by
          cases pc with
          | done r => exact absurd rfl (hd r)
          | _ => simp [AsyncShapedSys.taskStep, ht]
        have := hj pc
        rw [he]
        exact ⟨this.2, by simp only [AsyncShapedSys.space, ht, TaskPc.space]; omega⟩

/-! ## Runs -/

theorem TimedSys.run_append (t : TimedSys R) (a b : List (Timed SysLabel)) :
    t.run P prof (a ++ b) = (t.run P prof a).run P prof b := by
  simp [TimedSys.run, List.foldl_append]

theorem AsyncTimedSys.run_append (t : AsyncTimedSys R) (a b : List (Timed AsyncLabel)) :
    t.run P prof (a ++ b) = (t.run P prof a).run P prof b := by
  simp [AsyncTimedSys.run, List.foldl_append]

/-- Numbers at least `d` apart in an interval of length `T` are few. -/
theorem apart_count {d : Nat} (l : List Nat) (h : l.Pairwise (fun a b => a + d ≤ b)) {a T : Nat}
    (hl : ∀ x ∈ l, a ≤ x ∧ x ≤ a + T) : d * l.length ≤ T + d := by
  induction l generalizing a T with
  | nil => simp
  | cons x xs ih =>
    rw [List.pairwise_cons] at h
    have hx := hl x (by simp)
    cases xs with
    | nil => simp
    | cons y ys =>
      have hy := h.1 y (by simp)
      have hy2 := hl y (by simp)
      have := ih h.2 (a := x + d) (T := a + T - (x + d)) (fun z hz => by
        have h1 := h.1 z hz
        have h2 := hl z (List.mem_cons_of_mem _ hz)
        omega)
      rw [List.length_cons, Nat.mul_succ]
      omega

end Bip324
