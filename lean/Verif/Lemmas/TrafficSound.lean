import Verif.Lemmas.TrafficWire

/-! # Shaped sessions: no panics below the packet limit, and progress -/

namespace Bip324

variable {P : Prims} {prof : Profile} {R : Rng}

/-- A payload that has contents and a packet type: every one an application can construct, except
`Payload` values made from an empty decryption result. -/
def Usable (p : Payload) : Prop := ∃ v, p.view = some v

theorem usable_genuine (c : Bytes) : Usable (.genuine c) := ⟨_, rfl⟩
theorem usable_decoy (c : Bytes) : Usable (.decoy c) := ⟨_, rfl⟩

theorem ShaperDecoy.usable {p : Payload} (h : ShaperDecoy p) : Usable p := by
  obtain ⟨n, -, -, rfl⟩ := h; exact ⟨_, rfl⟩

/-- A write that has not panicked and will not for lack of contents. -/
def WProc.Good : WProc → Prop
  | .start p => Usable p
  | .done r => r ≠ .panic
  | _ => True

/-- The same for jobs. -/
def JobPc.Good : JobPc → Prop
  | .start (.write p) => Usable p
  | .start .cover => True
  | .padding w p => w.Good ∧ Usable p
  | .payload w => w.Good
  | .cover w => w.Good
  | .done r => r ≠ .panic

/-- The cipher has encrypted at most `n` packets. -/
def CipherAt (P : Prims) (kL kP : Bytes) (n : Nat) (o : OutboundCipher) : Prop :=
  ∃ m, m ≤ n ∧ OutboundCipher.At P kL kP m o

theorem CipherAt.mono {kL kP : Bytes} {n m : Nat} {o : OutboundCipher} (h : CipherAt P kL kP n o)
    (hle : n ≤ m) : CipherAt P kL kP m o := by
  obtain ⟨k, h1, h2⟩ := h; exact ⟨k, by omega, h2⟩

theorem WProc.step_good (hP : Lawful P) {kL kP : Bytes} {n : Nat} (hn : n + 1 < 2 ^ 32) {w : Writer}
    (hc : CipherAt P kL kP n w.cipher) (f : Flavour) {pc : WProc} (hg : pc.Good) :
    CipherAt P kL kP (n + 1) (pc.step f P prof w).1.cipher ∧ (pc.step f P prof w).2.Good := by
  cases pc with
  | start p =>
    obtain ⟨⟨t, c⟩, hv⟩ := hg
    obtain ⟨m, hm, hat⟩ := hc
    obtain ⟨o', h1, h2⟩ := hat.encryptToVec (prof := prof) hP (by omega) c t none
    rw [Payload.view_some] at hv
    simp only [WProc.step, hv.1, hv.2, h2]
    exact ⟨⟨m + 1, by omega, h1⟩, trivial⟩
  | sending rest =>
    have hc := hc.mono (Nat.le_succ n)
    cases rest with
    | nil => exact ⟨hc, trivial⟩
    | cons b bs =>
      obtain ⟨c, script, flushes, out⟩ := w
      cases script with
      | nil => exact ⟨hc, trivial⟩
      | cons e s =>
        cases e with
        | pending => exact ⟨hc, trivial⟩
        | fail k =>
          simp only [WProc.step]
          split
          · exact ⟨hc, trivial⟩
          · exact ⟨hc, by simp [WProc.Good]⟩
        | accept n =>
          cases n with
          | zero => exact ⟨hc, by simp [WProc.step, WProc.Good]⟩
          | succ n => exact ⟨hc, trivial⟩
  | flushing =>
    have hc := hc.mono (Nat.le_succ n)
    simp only [WProc.step]
    cases hf : w.writer.flush with
    | mk s x => cases x <;> exact ⟨hc, by simp [WProc.Good]⟩
  | done r => exact ⟨hc.mono (Nat.le_succ n), hg⟩

theorem JobPc.step_good (hP : Lawful P) {kL kP : Bytes} {n : Nat} (hn : n + 1 < 2 ^ 32)
    {ws : WriterState R} (hc : CipherAt P kL kP n ws.writer.cipher) (f : Flavour) {pc : JobPc}
    (hg : pc.Good) :
    CipherAt P kL kP (n + 1) (pc.step f P prof ws).1.writer.cipher ∧ (pc.step f P prof ws).2.Good := by
  have hc' := hc.mono (Nat.le_succ n)
  cases pc with
  | start job =>
    cases job with
    | write p =>
      have hg : Usable p := hg
      simp only [JobPc.step]
      cases h : ws.shaper.pad p with
      | none =>
        obtain ⟨⟨t, c⟩, hv⟩ := hg
        rw [Payload.view_some] at hv
        unfold Shaper.pad at h
        rw [hv.2] at h
        cases hs : ws.shaper.config.padding <;> simp [hs] at h
      | some x =>
        obtain ⟨sh, d, r⟩ := x
        cases d with
        | none => exact ⟨hc', hg⟩
        | some d => exact ⟨hc', ((pad_some h).2.2.2.2 d rfl).usable, hg⟩
    | cover =>
      simp only [JobPc.step]
      cases h : ws.shaper.decoy with
      | mk sh x =>
      obtain ⟨d, r⟩ := x
      cases d with
      | none => exact ⟨hc', by simp [JobPc.Good]⟩
      | some d => exact ⟨hc', ((decoy_some h).2.2 d rfl).usable⟩
  | padding w p =>
    obtain ⟨hg, hp⟩ := hg
    have hs := WProc.step_good (prof := prof) hP hn hc f hg
    cases w with
    | done r =>
      cases r with
      | ok u => exact ⟨hc', hp⟩
      | err e => exact ⟨hc', by simp [JobPc.step, JobPc.Good]⟩
      | panic => exact absurd rfl hg
    | _ => exact ⟨hs.1, hs.2, hp⟩
  | payload w =>
    have hs := WProc.step_good (prof := prof) hP hn hc f (pc := w) hg
    cases w with
    | done r => exact ⟨hc', hg⟩
    | _ => exact ⟨hs.1, hs.2⟩
  | cover w =>
    have hs := WProc.step_good (prof := prof) hP hn hc f (pc := w) hg
    cases w with
    | done r => exact ⟨hc', hg⟩
    | _ => exact ⟨hs.1, hs.2⟩
  | done r => exact ⟨hc', hg⟩

/-! ## Threads -/

/-- Nothing has panicked. -/
structure ShapedSys.Sound (P : Prims) (kL kP : Bytes) (n : Nat) (s : ShapedSys R) : Prop where
  cipher : CipherAt P kL kP n s.ws.writer.cipher
  poisoned : s.poisoned = false
  locking : ∀ p, s.app = .locking p → Usable p
  writing : ∀ p pc, s.app = .writing p pc → pc.Good
  covering : ∀ pc, s.bg = .covering pc → pc.Good
  alive : s.bg ≠ .panicked
  returned : ∀ x ∈ s.returned, x.2 ≠ .panic

/-- The calls a schedule makes have usable payloads. -/
def CallsUsable (ls : List SysLabel) : Prop := ∀ p, SysLabel.call p ∈ ls → Usable p

theorem ShapedSys.Fresh.sound {s : ShapedSys R} (h : s.Fresh) {kL kP : Bytes} {n : Nat}
    (hat : OutboundCipher.At P kL kP n s.ws.writer.cipher) : s.Sound P kL kP n where
  cipher := ⟨n, Nat.le_refl _, hat⟩
  poisoned := h.poisoned
  locking := by simp [h.app]
  writing := by simp [h.app]
  covering := by simp [h.bg]
  alive := by simp [h.bg]
  returned := by simp [h.returned]

theorem ShapedSys.Sound.mono {s : ShapedSys R} {kL kP : Bytes} {n m : Nat} (h : s.Sound P kL kP n)
    (hle : n ≤ m) : s.Sound P kL kP m :=
  ⟨h.cipher.mono hle, h.poisoned, h.locking, h.writing, h.covering, h.alive, h.returned⟩

theorem ShapedSys.Sound.step (hP : Lawful P) {kL kP : Bytes} {n : Nat} (hn : n + 1 < 2 ^ 32)
    {s : ShapedSys R} (h : s.Sound P kL kP n) (l : SysLabel) (hl : ∀ p, l = .call p → Usable p) :
    (s.step P prof l).Sound P kL kP (n + 1) := by
  have h0 := h.mono (Nat.le_succ n)
  obtain ⟨h1, h2, h3, h4, h5, h6, h7⟩ := h0
  cases l with
  | call p =>
    unfold ShapedSys.step
    cases ha : s.app with
    | idle =>
      exact ⟨h1, h2, fun q hq => by cases hq; exact hl p rfl, by simp, h5, h6, h7⟩
    | _ => exact h.mono (Nat.le_succ n)
  | drop =>
    unfold ShapedSys.step
    cases ha : s.app with
    | idle => exact ⟨h1, h2, by simp, by simp, h5, h6, h7⟩
    | _ => exact h.mono (Nat.le_succ n)
  | read => exact ⟨h1, h2, h3, h4, h5, h6, h7⟩
  | app =>
    show (s.appStep P prof).Sound P kL kP (n + 1)
    cases ha : s.app with
    | idle =>
      have : s.appStep P prof = s := by simp [ShapedSys.appStep, ha]
      rw [this]; exact h.mono (Nat.le_succ n)
    | gone =>
      have : s.appStep P prof = s := by simp [ShapedSys.appStep, ha]
      rw [this]; exact h.mono (Nat.le_succ n)
    | joining =>
      by_cases hb : s.bg = .finished ∨ s.bg = .panicked
      · have : s.appStep P prof = { s with app := .gone } := by simp [ShapedSys.appStep, ha, hb]
        rw [this]
        exact ⟨h1, h2, by simp, by simp, h5, h6, h7⟩
      · have : s.appStep P prof = s := by simp [ShapedSys.appStep, ha, hb]
        rw [this]; exact h.mono (Nat.le_succ n)
    | locking p =>
      cases ho : s.owner with
      | some t => rw [app_blocked ha ho]; exact h.mono (Nat.le_succ n)
      | none =>
        rw [app_locks ha ho h2]
        refine ⟨h1, h2, by simp, ?_, h5, h6, h7⟩
        intro q pc hq
        cases hq
        exact h3 p ha
    | writing p pc =>
      have hg := h4 p pc ha
      rcases pc.done_or with ⟨r, rfl⟩ | hd
      · rw [app_returns ha]
        have hr : (r == .panic) = false := by
          have : r ≠ .panic := hg
          cases r <;> simp_all
        refine ⟨h1, by simp [h2, hr], by simp, by simp, h5, h6, ?_⟩
        intro x hx
        rcases List.mem_append.1 hx with hx | hx
        · exact h7 x hx
        · rw [List.mem_singleton.1 hx]; exact hg
      · rw [app_writes ha hd]
        obtain ⟨k1, k2⟩ := JobPc.step_good (prof := prof) hP hn h.cipher .sync hg
        refine ⟨k1, h2, by simp, ?_, h5, h6, h7⟩
        intro q pc' hq
        cases hq
        exact k2
  | bg =>
    show (s.bgStep P prof).Sound P kL kP (n + 1)
    cases hb : s.bg with
    | checking =>
      have : s.bgStep P prof = { s with bg := if s.shutdown then .finished else .sleeping } := by
        simp [ShapedSys.bgStep, hb]
      rw [this]
      refine ⟨h1, h2, h3, h4, ?_, ?_, h7⟩
      · intro pc; simp only; split <;> simp
      · simp only; split <;> simp
    | sleeping =>
      have : s.bgStep P prof = { s with bg := .trying } := by simp [ShapedSys.bgStep, hb]
      rw [this]
      exact ⟨h1, h2, h3, h4, by simp, by simp, h7⟩
    | trying =>
      cases ho : s.owner with
      | some t =>
        have : s.bgStep P prof = { s with bg := .checking } := by simp [ShapedSys.bgStep, hb, ho]
        rw [this]
        exact ⟨h1, h2, h3, h4, by simp, by simp, h7⟩
      | none =>
        rw [bg_locks hb ho h2]
        refine ⟨h1, h2, h3, h4, ?_, by simp, h7⟩
        intro pc hpc
        cases hpc
        trivial
    | covering pc =>
      have hg := h5 pc hb
      rcases pc.done_or with ⟨r, rfl⟩ | hd
      · rw [bg_unlocks hb]
        have hne : r ≠ .panic := hg
        have hr : (r == .panic) = false := by cases r <;> simp_all
        refine ⟨h1, by simp [h2, hr], h3, h4, ?_, ?_, h7⟩
        · intro pc; simp [hne]
        · simp [hne]
      · rw [bg_writes hb hd]
        obtain ⟨k1, k2⟩ := JobPc.step_good (prof := prof) hP hn h.cipher .sync hg
        refine ⟨k1, h2, h3, h4, ?_, by simp, h7⟩
        intro pc' hq
        cases hq
        exact k2
    | finished =>
      have : s.bgStep P prof = s := by simp [ShapedSys.bgStep, hb]
      rw [this]; exact h.mono (Nat.le_succ n)
    | panicked => exact absurd hb h6

theorem ShapedSys.Sound.run (hP : Lawful P) {kL kP : Bytes} (ls : List SysLabel) {n : Nat}
    (hn : n + ls.length < 2 ^ 32) {s : ShapedSys R} (h : s.Sound P kL kP n) (hl : CallsUsable ls) :
    (s.run P prof ls).Sound P kL kP (n + ls.length) := by
  induction ls generalizing s n with
  | nil => exact h
  | cons l ls ih =>
    simp only [List.length_cons] at hn ⊢
    have := ih (by omega) (h.step (prof := prof) hP (by omega) l
      (fun p hp => hl p (by simp [hp]))) (fun p hp => hl p (by simp [hp]))
    rw [show n + (ls.length + 1) = n + 1 + ls.length by omega]
    exact this

/-! ## Tasks -/

/-- Nothing has panicked. -/
structure AsyncShapedSys.Sound (P : Prims) (kL kP : Bytes) (n : Nat) (s : AsyncShapedSys R) : Prop where
  cipher : CipherAt P kL kP n s.ws.writer.cipher
  queue : ∀ c ∈ s.queue, Usable c.payload
  writing : ∀ c pc, s.task = .writing c pc → pc.Good
  covering : ∀ pc, s.task = .covering pc → pc.Good
  alive : s.task ≠ .panicked

/-- The calls a schedule makes have usable payloads. -/
def AsyncCallsUsable (ls : List AsyncLabel) : Prop := ∀ p, AsyncLabel.call p ∈ ls → Usable p

theorem AsyncShapedSys.Fresh.sound {s : AsyncShapedSys R} (h : s.Fresh) {kL kP : Bytes} {n : Nat}
    (hat : OutboundCipher.At P kL kP n s.ws.writer.cipher) : s.Sound P kL kP n where
  cipher := ⟨n, Nat.le_refl _, hat⟩
  queue := by simp [h.queue]
  writing := by simp [h.task]
  covering := by simp [h.task]
  alive := by simp [h.task]

theorem AsyncShapedSys.Sound.mono {s : AsyncShapedSys R} {kL kP : Bytes} {n m : Nat}
    (h : s.Sound P kL kP n) (hle : n ≤ m) : s.Sound P kL kP m :=
  ⟨h.cipher.mono hle, h.queue, h.writing, h.covering, h.alive⟩

theorem AsyncShapedSys.Sound.step (hP : Lawful P) {kL kP : Bytes} {n : Nat} (hn : n + 1 < 2 ^ 32)
    {s : AsyncShapedSys R} (h : s.Sound P kL kP n) (l : AsyncLabel) (hl : ∀ p, l = .call p → Usable p) :
    (s.step P prof l).Sound P kL kP (n + 1) := by
  have h0 := h.mono (Nat.le_succ n)
  by_cases hsame : s.step P prof l = s
  · rw [hsame]; exact h0
  obtain ⟨h1, h2, h3, h4, h5⟩ := h0
  cases l with
  | call p =>
    simp only [AsyncShapedSys.step] at hsame ⊢
    split
    · split
      · exact ⟨h1, h2, h3, h4, h5⟩
      · refine ⟨h1, ?_, h3, h4, h5⟩
        intro c hc
        rcases List.mem_append.1 hc with hc | hc
        · exact h2 c hc
        · rw [List.mem_singleton.1 hc]; exact hl p rfl
    · exact ⟨h1, h2, h3, h4, h5⟩
  | resume =>
    simp only [AsyncShapedSys.step]
    split
    · split
      · exact ⟨h1, h2, h3, h4, h5⟩
      · split <;> exact ⟨h1, h2, h3, h4, h5⟩
    · exact ⟨h1, h2, h3, h4, h5⟩
  | cancel =>
    simp only [AsyncShapedSys.step]
    split <;> exact ⟨h1, h2, h3, h4, h5⟩
  | drop =>
    simp only [AsyncShapedSys.step]
    split <;> exact ⟨h1, h2, h3, h4, h5⟩
  | recv =>
    simp only [AsyncShapedSys.step]
    split
    · split
      · rename_i cmd q hq
        refine ⟨h1, fun c hc => h2 c (by simp [hq, hc]), ?_, by simp, by simp⟩
        intro c pc hpc
        cases hpc
        exact h2 cmd (by simp [hq])
      · split
        · exact ⟨h1, h2, by simp, by simp, by simp⟩
        · exact ⟨h1, h2, h3, h4, h5⟩
    · exact ⟨h1, h2, h3, h4, h5⟩
  | tick =>
    simp only [AsyncShapedSys.step]
    split
    · refine ⟨h1, h2, by simp, ?_, by simp⟩
      intro pc hpc
      cases hpc
      trivial
    · exact ⟨h1, h2, h3, h4, h5⟩
  | otherwise =>
    simp only [AsyncShapedSys.step]
    split
    · exact ⟨h1, h2, by simp, by simp, by simp⟩
    · exact ⟨h1, h2, h3, h4, h5⟩
  | read => exact ⟨h1, h2, h3, h4, h5⟩
  | task =>
    cases ht : s.task with
    | select a b => exact absurd (by simp [AsyncShapedSys.step, AsyncShapedSys.taskStep, ht]) hsame
    | finished => exact absurd (by simp [AsyncShapedSys.step, AsyncShapedSys.taskStep, ht]) hsame
    | panicked => exact absurd (by simp [AsyncShapedSys.step, AsyncShapedSys.taskStep, ht]) hsame
    | writing cmd pc =>
      have hg := h3 cmd pc ht
      rcases pc.done_or with ⟨x, rfl⟩ | hd
      · have hx : x ≠ .panic := hg
        have : s.step P prof .task = { s with
            task := .select false false, answers := s.answers ++ [(cmd.resultTx, x)] } := by
          simp [AsyncShapedSys.step, AsyncShapedSys.taskStep, ht, hx]
        rw [this]
        exact ⟨h1, h2, by simp, by simp, by simp⟩
      · have : s.step P prof .task = { s with
            ws := (pc.step .async P prof s.ws).1,
            task := .writing cmd (pc.step .async P prof s.ws).2 } := by
          cases pc with
          | done x => exact absurd rfl (hd x)
          | _ => simp [AsyncShapedSys.step, AsyncShapedSys.taskStep, ht]
        rw [this]
        obtain ⟨k1, k2⟩ := JobPc.step_good (prof := prof) hP hn h.cipher .async hg
        refine ⟨k1, h2, ?_, by simp, by simp⟩
        intro c pc' hq
        cases hq
        exact k2
    | covering pc =>
      have hg := h4 pc ht
      rcases pc.done_or with ⟨x, rfl⟩ | hd
      · have hx : x ≠ .panic := hg
        have : s.step P prof .task = { s with task := .select false false } := by
          simp [AsyncShapedSys.step, AsyncShapedSys.taskStep, ht, hx]
        rw [this]
        exact ⟨h1, h2, by simp, by simp, by simp⟩
      · have : s.step P prof .task = { s with
            ws := (pc.step .async P prof s.ws).1,
            task := .covering (pc.step .async P prof s.ws).2 } := by
          cases pc with
          | done x => exact absurd rfl (hd x)
          | _ => simp [AsyncShapedSys.step, AsyncShapedSys.taskStep, ht]
        rw [this]
        obtain ⟨k1, k2⟩ := JobPc.step_good (prof := prof) hP hn h.cipher .async hg
        refine ⟨k1, h2, by simp, ?_, by simp⟩
        intro pc' hq
        cases hq
        exact k2

theorem AsyncShapedSys.Sound.run (hP : Lawful P) {kL kP : Bytes} (ls : List AsyncLabel) {n : Nat}
    (hn : n + ls.length < 2 ^ 32) {s : AsyncShapedSys R} (h : s.Sound P kL kP n)
    (hl : AsyncCallsUsable ls) :
    (s.run P prof ls).Sound P kL kP (n + ls.length) := by
  induction ls generalizing s n with
  | nil => exact h
  | cons l ls ih =>
    simp only [List.length_cons] at hn ⊢
    have := ih (by omega) (h.step (prof := prof) hP (by omega) l
      (fun p hp => hl p (by simp [hp]))) (fun p hp => hl p (by simp [hp]))
    rw [show n + (ls.length + 1) = n + 1 + ls.length by omega]
    exact this

/-! ## Progress -/

theorem JobPc.steps_done (f : Flavour) (n : Nat) (ws : WriterState R) (r : Outcome ProtocolError Unit) :
    JobPc.steps f P prof n (ws, .done r) = (ws, .done r) := by
  induction n with
  | zero => rfl
  | succ n ih => exact ih

theorem ShapedSys.run_append (s : ShapedSys R) (a b : List SysLabel) :
    s.run P prof (a ++ b) = (s.run P prof a).run P prof b := by
  simp [ShapedSys.run]

theorem AsyncShapedSys.run_append (s : AsyncShapedSys R) (a b : List AsyncLabel) :
    s.run P prof (a ++ b) = (s.run P prof a).run P prof b := by
  simp [AsyncShapedSys.run]

/-- The application, holding the lock, finishes its job if it is allowed to run. -/
theorem ShapedSys.app_finishes (n : Nat) (s : ShapedSys R) (p : Payload) (pc : JobPc)
    (ws : WriterState R) (r : Outcome ProtocolError Unit) (ha : s.app = .writing p pc)
    (hn : JobPc.steps .sync P prof n (s.ws, pc) = (ws, .done r)) :
    ∃ m, m ≤ n ∧ s.run P prof (List.replicate m .app) = { s with ws, app := .writing p (.done r) } := by
  induction n generalizing s pc with
  | zero =>
    simp only [JobPc.steps, Prod.mk.injEq] at hn
    obtain ⟨rfl, rfl⟩ := hn
    exact ⟨0, Nat.le_refl _, by simp [ShapedSys.run, ← ha]⟩
  | succ n ih =>
    rcases pc.done_or with ⟨x, rfl⟩ | hd
    · rw [JobPc.steps_done] at hn
      cases hn
      exact ⟨0, Nat.zero_le _, by simp [ShapedSys.run, ← ha]⟩
    · obtain ⟨m, hm, h⟩ := ih (s.appStep P prof) (pc.step .sync P prof s.ws).2
        (by rw [app_writes ha hd]) (by rw [app_writes ha hd]; exact hn)
      refine ⟨m + 1, by omega, ?_⟩
      rw [List.replicate_succ]
      show (s.appStep P prof).run P prof _ = _
      rw [h, app_writes ha hd]

/-- The decoy thread, holding the lock, finishes its job if it is allowed to run. -/
theorem ShapedSys.bg_finishes (n : Nat) (s : ShapedSys R) (pc : JobPc)
    (ws : WriterState R) (r : Outcome ProtocolError Unit) (hb : s.bg = .covering pc)
    (hn : JobPc.steps .sync P prof n (s.ws, pc) = (ws, .done r)) :
    ∃ m, m ≤ n ∧ s.run P prof (List.replicate m .bg) = { s with ws, bg := .covering (.done r) } := by
  induction n generalizing s pc with
  | zero =>
    simp only [JobPc.steps, Prod.mk.injEq] at hn
    obtain ⟨rfl, rfl⟩ := hn
    exact ⟨0, Nat.le_refl _, by simp [ShapedSys.run, ← hb]⟩
  | succ n ih =>
    rcases pc.done_or with ⟨x, rfl⟩ | hd
    · rw [JobPc.steps_done] at hn
      cases hn
      exact ⟨0, Nat.zero_le _, by simp [ShapedSys.run, ← hb]⟩
    · obtain ⟨m, hm, h⟩ := ih (s.bgStep P prof) (pc.step .sync P prof s.ws).2
        (by rw [bg_writes hb hd]) (by rw [bg_writes hb hd]; exact hn)
      refine ⟨m + 1, by omega, ?_⟩
      rw [List.replicate_succ]
      show (s.bgStep P prof).run P prof _ = _
      rw [h, bg_writes hb hd]

/-- From every reachable state the lock can become free: its owner only has to go on. -/
theorem ShapedSys.Inv.progress {ws0 : WriterState R} {s : ShapedSys R} (h : s.Inv P prof ws0) :
    ∃ t m, (s.run P prof (List.replicate m t)).owner = none ∧ (t = .app ∨ t = .bg) ∧
      (s.run P prof (List.replicate m t)).called = s.called ∧
      s.ws.writer.writer.out <+: (s.run P prof (List.replicate m t)).ws.writer.writer.out := by
  rcases h.2 with ⟨tr, qs, h⟩ | ⟨tr, p, pc, h⟩ | ⟨tr, pc, h⟩
  · exact ⟨.app, 0, h.1, .inl rfl, rfl, List.prefix_rfl⟩
  · obtain ⟨n, hn⟩ := JobPc.ends (P := P) (prof := prof) .sync s.ws pc
    obtain ⟨m, -, hm⟩ := app_finishes n s p pc _ _ h.2.1 hn
    have hr : s.run P prof (List.replicate (m + 1) .app) =
        (s.run P prof (List.replicate m .app)).appStep P prof := by
      rw [List.replicate_succ', run_append]; rfl
    rw [hm, app_returns (r := (pc.finish .sync P prof s.ws).2) (p := p) rfl] at hr
    refine ⟨.app, m + 1, ?_, .inl rfl, ?_, ?_⟩
    · rw [hr]
    · rw [hr]
    · rw [hr]; exact JobPc.finish_out .sync s.ws pc
  · obtain ⟨n, hn⟩ := JobPc.ends (P := P) (prof := prof) .sync s.ws pc
    obtain ⟨m, -, hm⟩ := bg_finishes n s pc _ _ h.2.1 hn
    have hr : s.run P prof (List.replicate (m + 1) .bg) =
        (s.run P prof (List.replicate m .bg)).bgStep P prof := by
      rw [List.replicate_succ', run_append]; rfl
    rw [hm, bg_unlocks (r := (pc.finish .sync P prof s.ws).2) rfl] at hr
    refine ⟨.bg, m + 1, ?_, .inr rfl, ?_, ?_⟩
    · rw [hr]
    · rw [hr]
    · rw [hr]; exact JobPc.finish_out .sync s.ws pc

/-- The task finishes its job if it is allowed to run. -/
theorem AsyncShapedSys.task_finishes (n : Nat) (s : AsyncShapedSys R) (C : JobPc → TaskPc)
    (hC : C = .covering ∨ ∃ cmd, C = .writing cmd) (pc : JobPc)
    (ws : WriterState R) (r : Outcome ProtocolError Unit) (ht : s.task = C pc)
    (hn : JobPc.steps .async P prof n (s.ws, pc) = (ws, .done r)) :
    ∃ m, m ≤ n ∧ s.run P prof (List.replicate m .task) = { s with ws, task := C (.done r) } := by
  induction n generalizing s pc with
  | zero =>
    simp only [JobPc.steps, Prod.mk.injEq] at hn
    obtain ⟨rfl, rfl⟩ := hn
    exact ⟨0, Nat.le_refl _, by simp [AsyncShapedSys.run, ← ht]⟩
  | succ n ih =>
    rcases pc.done_or with ⟨x, rfl⟩ | hd
    · rw [JobPc.steps_done] at hn
      cases hn
      exact ⟨0, Nat.zero_le _, by simp [AsyncShapedSys.run, ← ht]⟩
    · have hs : s.step P prof .task = { s with
          ws := (pc.step .async P prof s.ws).1, task := C (pc.step .async P prof s.ws).2 } := by
        rcases hC with rfl | ⟨cmd, rfl⟩ <;>
        · cases pc with
          | done x => exact absurd rfl (hd x)
          | _ => simp [AsyncShapedSys.step, AsyncShapedSys.taskStep, ht]
      obtain ⟨m, hm, h⟩ := ih (s.step P prof .task) (pc.step .async P prof s.ws).2
        (by rw [hs]) (by rw [hs]; exact hn)
      refine ⟨m + 1, by omega, ?_⟩
      rw [List.replicate_succ]
      show (s.step P prof .task).run P prof _ = _
      rw [h, hs]

end Bip324
