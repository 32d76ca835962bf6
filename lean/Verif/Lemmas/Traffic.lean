import Verif.Props.Split
import Verif.Model.TrafficIo
import Verif.Model.TrafficFutures

/-! # Small steps of the shaped writer against whole jobs -/

namespace Bip324

variable {P : Prims} {prof : Profile} {R : Rng}

/-- A job executed without interruption. -/
def WriterState.exec (f : Flavour) (P : Prims) (prof : Profile) (ws : WriterState R) :
    Job → WriterState R × Outcome ProtocolError Unit
  | .write p => ws.write f P prof p
  | .cover => ws.cover f P prof

/-- What the writer will be, and the write return, when the steps left are taken. -/
def WProc.finish (f : Flavour) (P : Prims) (prof : Profile) (w : Writer) :
    WProc → Writer × Outcome ProtocolError Unit
  | .start p => w.write f P prof p
  | .sending rest =>
    match w.writer.send f.retry rest with
    | (s, .error k) => ({ w with writer := s }, .err (.fromIo k))
    | (s, .ok ()) => ({ w with writer := s }, .ok ())
  | .flushing =>
    match w.writer.flush with
    | (s, .error k) => ({ w with writer := s }, .err (.fromIo k))
    | (s, .ok ()) => ({ w with writer := s }, .ok ())
  | .done r => (w, r)

theorem WProc.step_finish (f : Flavour) (w : Writer) (pc : WProc) :
    (pc.step f P prof w).2.finish f P prof (pc.step f P prof w).1 = pc.finish f P prof w := by
  cases pc with
  | start p =>
    have hf : (WProc.start p).finish f P prof w = w.write f P prof p := rfl
    rw [hf]
    cases hv : p.view with
    | none =>
      rw [Writer.write_none f w hv]
      unfold Payload.view at hv
      simp only [WProc.step]
      cases h1 : p.packetType <;> cases h2 : p.contents <;> simp_all [WProc.finish]
    | some v =>
      obtain ⟨t, c⟩ := v
      rw [Writer.write_eq f w hv]
      rw [Payload.view_some] at hv
      simp only [WProc.step, hv.1, hv.2]
      cases he : w.cipher.encryptToVec P prof c t none with
      | mk o x =>
      cases x with
      | panic => rfl
      | err e =>
        exfalso
        unfold OutboundCipher.encryptToVec at he
        split at he <;> simp at he
      | ok pkt => rfl
  | sending rest =>
    cases rest with
    | nil =>
      simp only [WProc.step, WProc.finish, Sink.send, Sink.writeAll]
      have : writeAllGo f.retry w.writer.script [] = (w.writer.script, [], .ok ()) := by
        cases w.writer.script <;> rfl
      simp only [this, List.append_nil]
    | cons b bs =>
      obtain ⟨c, script, flushes, out⟩ := w
      cases script with
      | nil => simp [WProc.step, WProc.finish, Sink.send, Sink.writeAll, writeAllGo]
      | cons e s =>
        cases e with
        | pending => rfl
        | fail k =>
          simp only [WProc.step]
          split
          · rename_i h
            simp only [WProc.finish, Sink.send, Sink.writeAll, writeAllGo]
            rw [if_pos h]
          · rename_i h
            simp only [WProc.finish, Sink.send, Sink.writeAll, writeAllGo]
            rw [if_neg h]
            simp
        | accept n =>
          cases n with
          | zero => simp [WProc.step, WProc.finish, Sink.send, Sink.writeAll, writeAllGo]
          | succ n =>
            simp only [WProc.step, WProc.finish, Sink.send, Sink.writeAll, writeAllGo, List.append_assoc]
  | flushing =>
    simp only [WProc.step, WProc.finish]
    cases hf : w.writer.flush with
    | mk s x => cases x <;> rfl
  | done r => rfl

/-- What the writer state will be, and the job result in, when the steps left are taken. -/
def JobPc.finish (f : Flavour) (P : Prims) (prof : Profile) (ws : WriterState R) :
    JobPc → WriterState R × Outcome ProtocolError Unit
  | .start job => ws.exec f P prof job
  | .padding w p =>
    match w.finish f P prof ws.writer with
    | (w', .ok ()) =>
      match w'.write f P prof p with
      | (w'', r) => ({ ws with writer := w'' }, r)
    | (w', r) => ({ ws with writer := w' }, r)
  | .payload w =>
    match w.finish f P prof ws.writer with
    | (w', r) => ({ ws with writer := w' }, r)
  | .cover w =>
    match w.finish f P prof ws.writer with
    | (w', r) => ({ ws with writer := w' }, r)
  | .done r => (ws, r)

theorem JobPc.step_finish (f : Flavour) (ws : WriterState R) (pc : JobPc) :
    (pc.step f P prof ws).2.finish f P prof (pc.step f P prof ws).1 = pc.finish f P prof ws := by
  cases pc with
  | start job =>
    cases job with
    | write p =>
      have hf : (JobPc.start (.write p)).finish f P prof ws = ws.write f P prof p := rfl
      rw [hf]
      simp only [JobPc.step, WriterState.write]
      cases h : ws.shaper.pad p with
      | none => rfl
      | some x =>
        obtain ⟨sh, d, r⟩ := x
        cases d <;> rfl
    | cover =>
      have hf : (JobPc.start .cover).finish f P prof ws = ws.cover f P prof := rfl
      rw [hf]
      simp only [JobPc.step, WriterState.cover]
      cases h : ws.shaper.decoy with
      | mk sh x =>
      obtain ⟨d, r⟩ := x
      cases d <;> rfl
  | padding w p =>
    have hs := WProc.step_finish (P := P) (prof := prof) f ws.writer w
    cases w with
    | done r =>
      cases r with
      | ok u => rfl
      | err e => rfl
      | panic => rfl
    | _ =>
      simp only [JobPc.step, JobPc.finish]
      rw [← hs]
  | payload w =>
    have hs := WProc.step_finish (P := P) (prof := prof) f ws.writer w
    cases w with
    | done r => rfl
    | _ =>
      simp only [JobPc.step, JobPc.finish]
      rw [← hs]
  | cover w =>
    have hs := WProc.step_finish (P := P) (prof := prof) f ws.writer w
    cases w with
    | done r => rfl
    | _ =>
      simp only [JobPc.step, JobPc.finish]
      rw [← hs]
  | done r => rfl

/-- That many steps. -/
def JobPc.steps (f : Flavour) (P : Prims) (prof : Profile) : Nat → WriterState R × JobPc → WriterState R × JobPc
  | 0, x => x
  | n + 1, x => JobPc.steps f P prof n (x.2.step f P prof x.1)

theorem JobPc.steps_finish (f : Flavour) (n : Nat) (x : WriterState R × JobPc) :
    (JobPc.steps f P prof n x).2.finish f P prof (JobPc.steps f P prof n x).1 = x.2.finish f P prof x.1 := by
  induction n generalizing x with
  | zero => rfl
  | succ n ih => rw [JobPc.steps, ih, JobPc.step_finish]

/-! ## Jobs end -/

/-- Steps a write has left, once the packet is encrypted. -/
def WProc.rank (w : Writer) : WProc → Nat
  | .start _ => 0
  | .sending rest => w.writer.script.length + (if rest = [] then 0 else 1) + 2
  | .flushing => 1
  | .done _ => 0

theorem WProc.step_rank (f : Flavour) (w : Writer) (pc : WProc) (h1 : ∀ p, pc ≠ .start p)
    (h2 : ∀ r, pc ≠ .done r) :
    (pc.step f P prof w).2.rank (pc.step f P prof w).1 < pc.rank w ∧
      ∀ p, (pc.step f P prof w).2 ≠ .start p := by
  cases pc with
  | start p => exact absurd rfl (h1 p)
  | done r => exact absurd rfl (h2 r)
  | flushing =>
    simp only [WProc.step]
    cases hf : w.writer.flush with
    | mk s x => cases x <;> simp [WProc.rank]
  | sending rest =>
    cases rest with
    | nil => simp [WProc.step, WProc.rank]
    | cons b bs =>
      obtain ⟨c, script, flushes, out⟩ := w
      cases script with
      | nil => simp [WProc.step, WProc.rank]
      | cons e s =>
        cases e with
        | pending => simp [WProc.step, WProc.rank]
        | fail k =>
          simp only [WProc.step]
          split
          · simp [WProc.rank]
          · simp [WProc.rank]
        | accept n =>
          cases n with
          | zero => simp [WProc.step, WProc.rank]
          | succ n =>
            simp only [WProc.step, WProc.rank]
            refine ⟨?_, by simp⟩
            simp only [List.length_cons, reduceCtorEq, if_false]
            split <;> omega

/-- The system steps of a job that has reached `done` are up to the owner; until then a job makes
progress: after some number of steps it is done. -/
theorem JobPc.ends (f : Flavour) (ws : WriterState R) (pc : JobPc) :
    ∃ n, JobPc.steps f P prof n (ws, pc) =
      ((pc.finish f P prof ws).1, .done (pc.finish f P prof ws).2) := by
  have go : ∀ (ws : WriterState R) pc, (∃ m, JobPc.steps f P prof m (pc.step f P prof ws) =
      (((pc.step f P prof ws).2.finish f P prof (pc.step f P prof ws).1).1,
        .done ((pc.step f P prof ws).2.finish f P prof (pc.step f P prof ws).1).2)) →
      ∃ n, JobPc.steps f P prof n (ws, pc) =
        ((pc.finish f P prof ws).1, .done (pc.finish f P prof ws).2) := by
    rintro ws pc ⟨m, hm⟩
    refine ⟨m + 1, ?_⟩
    rw [JobPc.steps, hm, JobPc.step_finish]
  -- the three stages in which a packet is written
  have stage : ∀ (C : WProc → JobPc), (∀ (ws : WriterState R) w, (∀ r, w ≠ .done r) →
        JobPc.step f P prof ws (C w) = ({ ws with writer := (w.step f P prof ws.writer).1 },
          C (w.step f P prof ws.writer).2)) →
      (∀ (ws : WriterState R) r, ∃ n, JobPc.steps f P prof n (ws, C (.done r)) =
        (((C (.done r)).finish f P prof ws).1, .done ((C (.done r)).finish f P prof ws).2)) →
      ∀ (ws : WriterState R) w, ∃ n, JobPc.steps f P prof n (ws, C w) =
        (((C w).finish f P prof ws).1, .done ((C w).finish f P prof ws).2) := by
    intro C hC hdone
    have main : ∀ k (ws : WriterState R) w, w.rank ws.writer ≤ k → (∀ p, w ≠ .start p) →
        ∃ n, JobPc.steps f P prof n (ws, C w) =
          (((C w).finish f P prof ws).1, .done ((C w).finish f P prof ws).2) := by
      intro k
      induction k with
      | zero =>
        intro ws w hk hs
        by_cases hd : ∃ r, w = .done r
        · obtain ⟨r, rfl⟩ := hd; exact hdone ws r
        · have := (WProc.step_rank (P := P) (prof := prof) f ws.writer w hs
            (fun r h => hd ⟨r, h⟩)).1
          omega
      | succ k ih =>
        intro ws w hk hs
        by_cases hd : ∃ r, w = .done r
        · obtain ⟨r, rfl⟩ := hd; exact hdone ws r
        · have hd : ∀ r, w ≠ .done r := fun r h => hd ⟨r, h⟩
          obtain ⟨h1, h2⟩ := WProc.step_rank (P := P) (prof := prof) f ws.writer w hs hd
          apply go
          rw [hC ws w hd]
          exact ih _ _ (Nat.le_of_lt_succ (Nat.lt_of_lt_of_le h1 hk)) h2
    intro ws w
    by_cases hs : ∃ p, w = .start p
    · obtain ⟨p, rfl⟩ := hs
      apply go
      rw [hC ws _ (by simp)]
      refine main _ _ _ (Nat.le_refl _) ?_
      intro q
      simp only [WProc.step]
      split
      · split <;> simp
      · simp
    · exact main _ ws w (Nat.le_refl _) (fun p h => hs ⟨p, h⟩)
  have hpay := stage .payload
    (by intro ws w hd; cases w <;> first | exact absurd rfl (hd _) | rfl)
    (fun ws r => ⟨1, rfl⟩)
  have hcov := stage .cover
    (by intro ws w hd; cases w <;> first | exact absurd rfl (hd _) | rfl)
    (fun ws r => ⟨1, rfl⟩)
  have hpad := fun p => stage (fun w => .padding w p)
    (by intro ws w hd; cases w <;> first | exact absurd rfl (hd _) | rfl)
    (by
      intro ws r
      cases r with
      | ok u => exact go ws _ (hpay ws (.start p))
      | err e => exact ⟨1, rfl⟩
      | panic => exact ⟨1, rfl⟩)
  cases pc with
  | done r => exact ⟨0, rfl⟩
  | payload w => exact hpay ws w
  | cover w => exact hcov ws w
  | padding w p => exact hpad p ws w
  | start job =>
    apply go
    cases job with
    | write p =>
      simp only [JobPc.step]
      cases h : ws.shaper.pad p with
      | none => exact ⟨0, rfl⟩
      | some x =>
        obtain ⟨sh, d, r⟩ := x
        cases d with
        | none => exact hpay _ _
        | some d => exact hpad p _ _
    | cover =>
      simp only [JobPc.step]
      cases h : ws.shaper.decoy with
      | mk sh x =>
      obtain ⟨d, r⟩ := x
      cases d with
      | none => exact ⟨0, rfl⟩
      | some d => exact hcov _ _

end Bip324
