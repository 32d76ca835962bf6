import Verif.Lemmas.ShapedLane

/-!
# What a shaped party can still do
-/

namespace Bip324

variable {P : Prims} {prof : Profile} {RA RB : Rng} {capA capB : Nat}

/-- A step of a thread of `a`, or of the reader of `b`. -/
def ShapedMove.Helps (m : ShapedMove) : Prop :=
  if m.ofA then m.act = .sys .app ∨ m.act = .sys .bg else m.act = .sys .read ∨ m.act = .reading

/-- There is a schedule of such steps. -/
def CanReach (capA capB : Nat) (P : Prims) (prof : Profile) (s s' : ShapedLink RA RB) : Prop :=
  ∃ ms : List ShapedMove, (∀ m ∈ ms, m.Helps) ∧ s.run capA capB P prof ms = s'

theorem CanReach.refl (s : ShapedLink RA RB) : CanReach capA capB P prof s s := ⟨[], by simp, rfl⟩

theorem CanReach.trans {s s' s'' : ShapedLink RA RB} (h : CanReach capA capB P prof s s') (h' : CanReach capA capB P prof s' s'') :
    CanReach capA capB P prof s s'' := by
  obtain ⟨ms, h1, rfl⟩ := h
  obtain ⟨ms', h2, rfl⟩ := h'
  refine ⟨ms ++ ms', ?_, by simp [ShapedLink.run]⟩
  intro m hm
  rcases List.mem_append.1 hm with hm | hm
  · exact h1 m hm
  · exact h2 m hm

theorem CanReach.one {s : ShapedLink RA RB} {m : ShapedMove} (h : m.Helps) : CanReach capA capB P prof s (s.step capA capB P prof m) :=
  ⟨[m], by simpa using h, rfl⟩

variable {kL kP : Bytes} {n0 : Nat} {log : List Payload} {rest : Bytes}

theorem payloadStream_nil (hP : Lawful P) {n : Nat} {ps : List Payload} (h : payloadStream P kL kP n ps = []) : ps = [] := by
  have := congrArg List.length h
  rw [payloadStream_length hP] at this
  cases ps with
  | nil => rfl
  | cons p ps => simp only [wireSize, List.map_cons, List.sum_cons, List.length_nil] at this; omega

/-- The reader can read until nothing is there. -/
theorem drain (hP : Lawful P) {s : ShapedLink RA RB} (hnet : s.b.run.net = s.a.run.net.swap)
    (h : ShapedLane P prof kL kP n0 log rest s.a s.b) (hlen : n0 + log.length < 2 ^ 32) :
    ∃ s', CanReach capA capB P prof s s' ∧ s'.b.run.net = s'.a.run.net.swap ∧ ShapedLane P prof kL kP n0 log rest s'.a s'.b ∧
      s'.a.sys = s.a.sys ∧ s'.a.run.net.1 = [] ∧ (rest = [] → s'.b.sys.reads.length = log.length) := by
  generalize hW : readWork log s.b = W
  induction W using Nat.strongRecOn generalizing s with
  | _ W ih =>
    have hn2 : s.b.run.net.2 = s.a.run.net.1 := by rw [hnet]; rfl
    have stop : s.b.half.held ++ s.b.run.net.2 = [] → (rest = [] → s.b.sys.reads.length = log.length) →
        ∃ s', CanReach capA capB P prof s s' ∧ s'.b.run.net = s'.a.run.net.swap ∧ ShapedLane P prof kL kP n0 log rest s'.a s'.b ∧
          s'.a.sys = s.a.sys ∧ s'.a.run.net.1 = [] ∧ (rest = [] → s'.b.sys.reads.length = log.length) := fun h1 h2 =>
      ⟨s, .refl s, hnet, h, rfl, by rw [← hn2]; exact (List.append_eq_nil_iff.1 h1).2, h2⟩
    by_cases hi : s.b.half.pc = .idle
    · by_cases he : s.b.half.held ++ s.b.run.net.2 = []
      · refine stop he fun hr => ?_
        obtain ⟨j, h1, h2, h3⟩ := h.reader
        rw [h2, List.length_map, List.length_take]
        have : log.drop j = [] := by
          rcases h3 with h3 | ⟨-, h4, -⟩
          · unfold ReaderAt at h3
            rw [hi, ← hn2, he, hr] at h3
            obtain ⟨o, -, -, h5⟩ := h3
            exact payloadStream_nil hP h5.symm
          · exact h4
        have := congrArg List.length this
        rw [List.length_drop, List.length_nil] at this
        omega
      · have hb := h.begin hn2 (endConn capA 0) (endConn capB 0)
        have hstep : s.step capA capB P prof ⟨false, .sys .read, 0⟩ = ⟨s.a.step (endConn capA 0) P prof (.peer (s.b.step (endConn capB 0) P prof (.sys .read)).run.net.swap), s.b.step (endConn capB 0) P prof (.sys .read)⟩ := rfl
        obtain ⟨s', g1, g2, g3, g4, g5⟩ := ih (readWork log (s.step capA capB P prof ⟨false, .sys .read, 0⟩).b) (by
          rw [← hW, hstep]
          have e : (s.b.step (endConn capB 0) P prof (.sys .read)).half = { s.b.half with pc := .length [] } := by
            simp only [ShapedN.step, syncHalf, if_pos hi]
          have e1 : (s.b.step (endConn capB 0) P prof (.sys .read)).sys = s.b.sys := rfl
          have e2 : (s.b.step (endConn capB 0) P prof (.sys .read)).run = s.b.run := rfl
          unfold readWork
          simp only [e, e1, e2, hi, SyncHalf.held, ReadPc.weight]
          omega) (s := s.step capA capB P prof ⟨false, .sys .read, 0⟩) rfl hb rfl
        exact ⟨s', (CanReach.one (by simp [ShapedMove.Helps])).trans g1, g2, g3, g4, g5⟩
    · obtain ⟨h1, -, h2⟩ := h.read hP hn2 hlen (endConn capA 0) capB 0 (r' := s.b.step (endConn capB 0) P prof .reading) rfl
      rcases h2 with h2 | ⟨h2, h3⟩ | h2
      · exact absurd h2 hi
      · exact stop h2 h3
      · obtain ⟨s', g1, g2, g3, g4, g5⟩ := ih _ (by rw [← hW]; exact h2) (s := s.step capA capB P prof ⟨false, .reading, 0⟩) rfl h1 rfl
        exact ⟨s', (CanReach.one (by simp [ShapedMove.Helps])).trans g1, g2, g3, g4, g5⟩

/-- A step of a thread of `a` outside of the critical section. -/
theorem between_step (hP : Lawful P) {s : ShapedLink RA RB} (h : ShapedLane P prof kL kP n0 log rest s.a s.b)
    (hlen : n0 + log.length + 1 < 2 ^ 32) {l : SysLabel} (hl : l = .app ∨ l = .bg) (hb : s.a.sys.Between l) (hq : s.a.sys.asks l = none) :
    ∃ s', CanReach capA capB P prof s s' ∧ s'.b.run.net = s'.a.run.net.swap ∧ ShapedLane P prof kL kP n0 log rest s'.a s'.b ∧
      s'.a.sys = ({ s.a.sys with ws := s.a.sys.ws.over ⟨[], [], []⟩ } : ShapedSys RA).step P prof l := by
  have hl' : l ≠ .read := by rcases hl with rfl | rfl <;> simp
  obtain ⟨new, rest', hs, he⟩ := sender_step (prof := prof) (l := l) hP hlen h.sender hl' (by rcases hl with rfl | rfl <;> simp) capA 0
  obtain ⟨rfl, rfl⟩ := he hb
  have := h.send hs (endConn capB 0) (s.a.step (endConn capA 0) P prof (.sys l)).run.net.swap
  rw [List.append_nil] at this
  refine ⟨s.step capA capB P prof ⟨true, .sys l, 0⟩, CanReach.one ?_, rfl, this, ?_⟩
  · rcases hl with rfl | rfl <;> simp [ShapedMove.Helps]
  · show (s.a.step (endConn capA 0) P prof (.sys l)).sys = _
    rw [silent_step hl' hq]

/-- The writer is in its critical section and can finish its call. -/
theorem finish_app (hP : Lawful P) (hcap : 0 < capA) {s : ShapedLink RA RB} (hnet : s.b.run.net = s.a.run.net.swap)
    (h : ShapedLane P prof kL kP n0 log rest s.a s.b) {p : Payload} {pc : JobPc} (ha : s.a.sys.app = .writing p pc)
    (hlen : n0 + log.length + pc.packets + 1 < 2 ^ 32) :
    ∃ s' log' rest', CanReach capA capB P prof s s' ∧ s'.b.run.net = s'.a.run.net.swap ∧
      ShapedLane P prof kL kP n0 log' rest' s'.a s'.b ∧ log'.length ≤ log.length + pc.packets ∧ s'.a.sys.owner = none ∧
      s'.a.sys.app = .idle ∧ s'.a.sys.called = s.a.sys.called := by
  generalize hC : pc.cost = C
  induction C using Nat.strongRecOn generalizing s log rest pc with
  | _ C ih =>
    by_cases hd : ∃ r, pc = .done r
    · obtain ⟨r, rfl⟩ := hd
      obtain ⟨s', g1, g2, g3, g4⟩ := between_step (capA := capA) (capB := capB) (prof := prof) (l := .app) hP h (by omega) (.inl rfl)
        ⟨fun _ p' pc' h' => (by rw [ha] at h'; cases h'; exact ⟨r, rfl⟩), fun h => (by cases h)⟩ (by simp [ShapedSys.asks, ha, JobPc.asks])
      simp only [ShapedSys.step, ShapedSys.appStep, ha] at g4
      exact ⟨s', log, rest, g1, g2, g3, by omega, by rw [g4], by rw [g4], by rw [g4]⟩
    · have hnd : ∀ r, pc ≠ .done r := fun r h => hd ⟨r, h⟩
      obtain ⟨s1, d1, d2, d3, d4, d5, -⟩ := drain (capA := capA) (capB := capB) hP hnet h (by omega)
      have ha1 : s1.a.sys.app = .writing p pc := by rw [d4]; exact ha
      rcases app_goes (prof := prof) hP (by omega) d3.sender ha1 hnd capA 0 with ⟨-, g2, -⟩ |
        ⟨a', pc', new, rest', g1, g2, g3, g4, g5, g6, g7, g8, g9, g10, -, -⟩
      · rw [d5, List.length_nil] at g2; omega
      · have hl := d3.send g2 (endConn capB 0) a'.run.net.swap
        have hstep : s1.step capA capB P prof ⟨true, .sys .app, 0⟩ = ⟨a', s1.b.step (endConn capB 0) P prof (.peer a'.run.net.swap)⟩ := by
          show (⟨s1.a.step (endConn capA 0) P prof (.sys .app), s1.b.step (endConn capB 0) P prof (.peer (s1.a.step (endConn capA 0) P prof (.sys .app)).run.net.swap)⟩ : ShapedLink RA RB) = _
          rw [g1]
        have hll := g2.1
        obtain ⟨s', log', rest'', e1, e2, e3, e4, e5, e6, e7⟩ := ih pc'.cost (by omega) (s := s1.step capA capB P prof ⟨true, .sys .app, 0⟩)
          (log := log ++ new) (rest := rest') (pc := pc') (by rw [hstep]; rfl) (by rw [hstep]; exact hl) (by rw [hstep]; exact g3)
          (by rw [List.length_append]; omega) rfl
        refine ⟨s', log', rest'', (d1.trans (CanReach.one (by simp [ShapedMove.Helps]))).trans e1, e2, e3, ?_, e5, e6, ?_⟩
        · rw [List.length_append] at e4; omega
        · rw [e7, hstep]
          show a'.sys.called = _
          rw [g7, d4]

/-- The decoy thread is in its critical section and can finish its round. -/
theorem finish_bg (hP : Lawful P) (hcap : 0 < capA) {s : ShapedLink RA RB} (hnet : s.b.run.net = s.a.run.net.swap)
    (h : ShapedLane P prof kL kP n0 log rest s.a s.b) {pc : JobPc} (hb : s.a.sys.bg = .covering pc)
    (hlen : n0 + log.length + pc.packets + 1 < 2 ^ 32) :
    ∃ s' log' rest', CanReach capA capB P prof s s' ∧ s'.b.run.net = s'.a.run.net.swap ∧
      ShapedLane P prof kL kP n0 log' rest' s'.a s'.b ∧ log'.length ≤ log.length + pc.packets ∧ s'.a.sys.owner = none ∧
      s'.a.sys.bg = .checking ∧ s'.a.sys.app = s.a.sys.app ∧ s'.a.sys.shutdown = s.a.sys.shutdown ∧ s'.a.sys.called = s.a.sys.called := by
  generalize hC : pc.cost = C
  induction C using Nat.strongRecOn generalizing s log rest pc with
  | _ C ih =>
    by_cases hd : ∃ r, pc = .done r
    · obtain ⟨r, rfl⟩ := hd
      obtain ⟨s', g1, g2, g3, g4⟩ := between_step (capA := capA) (capB := capB) (prof := prof) (l := .bg) hP h (by omega) (.inr rfl)
        ⟨fun h => (by cases h), fun _ pc' h' => by rw [hb] at h'; cases h'; exact ⟨r, rfl⟩⟩ (by simp [ShapedSys.asks, hb, JobPc.asks])
      simp only [ShapedSys.step, ShapedSys.bgStep, hb] at g4
      have hbg : s'.a.sys.bg = .checking := by
        have := g3.sender.2.2.2.2.2.1.1
        rw [g4] at this ⊢
        simp only at this ⊢
        split at this
        · exact absurd rfl this
        · rename_i hr; rw [if_neg hr]
      exact ⟨s', log, rest, g1, g2, g3, by omega, by rw [g4], hbg, by rw [g4], by rw [g4], by rw [g4]⟩
    · have hnd : ∀ r, pc ≠ .done r := fun r h => hd ⟨r, h⟩
      obtain ⟨s1, d1, d2, d3, d4, d5, -⟩ := drain (capA := capA) (capB := capB) hP hnet h (by omega)
      have hb1 : s1.a.sys.bg = .covering pc := by rw [d4]; exact hb
      rcases bg_goes (prof := prof) hP (by omega) d3.sender hb1 hnd capA 0 with ⟨-, g2, -⟩ |
        ⟨a', pc', new, rest', g1, g2, g3, g4, g5, g6, g7, g8, g9, g10, -, -⟩
      · rw [d5, List.length_nil] at g2; omega
      · have hl := d3.send g2 (endConn capB 0) a'.run.net.swap
        have hstep : s1.step capA capB P prof ⟨true, .sys .bg, 0⟩ = ⟨a', s1.b.step (endConn capB 0) P prof (.peer a'.run.net.swap)⟩ := by
          show (⟨s1.a.step (endConn capA 0) P prof (.sys .bg), s1.b.step (endConn capB 0) P prof (.peer (s1.a.step (endConn capA 0) P prof (.sys .bg)).run.net.swap)⟩ : ShapedLink RA RB) = _
          rw [g1]
        have hll := g2.1
        obtain ⟨s', log', rest'', e1, e2, e3, e4, e5, e6, e7, e8, e9⟩ := ih pc'.cost (by omega) (s := s1.step capA capB P prof ⟨true, .sys .bg, 0⟩)
          (log := log ++ new) (rest := rest') (pc := pc') (by rw [hstep]; rfl) (by rw [hstep]; exact hl) (by rw [hstep]; exact g3)
          (by rw [List.length_append]; omega) rfl
        refine ⟨s', log', rest'', (d1.trans (CanReach.one (by simp [ShapedMove.Helps]))).trans e1, e2, e3, ?_, e5, e6, ?_, ?_, ?_⟩
        · rw [List.length_append] at e4; omega
        · rw [e7, hstep]
          show a'.sys.app = _
          rw [g6, d4]
        · rw [e8, hstep]
          show a'.sys.shutdown = _
          rw [g9, d4]
        · rw [e9, hstep]
          show a'.sys.called = _
          rw [g7, d4]

theorem packets_cover {pc : JobPc} (h : pc.Set .cover) : pc.packets ≤ 1 := by
  cases pc with
  | start j => cases h; simp [JobPc.packets]
  | padding w q => cases h.1
  | payload w => obtain ⟨p, h, -⟩ := h; cases h
  | cover w => cases w <;> simp [JobPc.packets, WProc.packets]
  | done r => simp [JobPc.packets]

theorem packets_le {pc : JobPc} : pc.packets ≤ 2 := by
  cases pc with
  | start j => cases j <;> simp [JobPc.packets]
  | padding w q => cases w <;> simp [JobPc.packets, WProc.packets]
  | payload w => cases w <;> simp [JobPc.packets, WProc.packets]
  | cover w => cases w <;> simp [JobPc.packets, WProc.packets]
  | done r => simp [JobPc.packets]

/-- The lock can be released; the application, unless it was writing, is where it was. -/
theorem release (hP : Lawful P) (hcap : 0 < capA) {s : ShapedLink RA RB} (hnet : s.b.run.net = s.a.run.net.swap)
    (h : ShapedLane P prof kL kP n0 log rest s.a s.b) (hlen : n0 + log.length + 3 < 2 ^ 32) :
    ∃ s' log' rest', CanReach capA capB P prof s s' ∧ s'.b.run.net = s'.a.run.net.swap ∧
      ShapedLane P prof kL kP n0 log' rest' s'.a s'.b ∧ s'.a.sys.owner = none ∧ s'.a.sys.called = s.a.sys.called ∧
      ((s'.a.sys.app = .idle ∧ log'.length ≤ log.length + 2 ∧ ∃ p pc, s.a.sys.app = .writing p pc) ∨
        (s'.a.sys.app = s.a.sys.app ∧ log'.length ≤ log.length + 1)) := by
  cases ho : s.a.sys.owner with
  | none => exact ⟨s, log, rest, .refl s, hnet, h, ho, rfl, .inr ⟨rfl, by omega⟩⟩
  | some t =>
    have hs := h.sender.2.2.2.2.2.2
    rw [ho] at hs
    cases t with
    | app =>
      obtain ⟨p, pc, ha, -⟩ := hs
      have hp := packets_le (pc := pc)
      obtain ⟨s', log', rest', g1, g2, g3, g4, g5, g6, g7⟩ := finish_app (capB := capB) hP hcap hnet h ha (by omega)
      exact ⟨s', log', rest', g1, g2, g3, g5, g7, .inl ⟨g6, by omega, p, pc, ha⟩⟩
    | bg =>
      obtain ⟨pc, hb, -, hg, -⟩ := hs
      have hp := packets_cover hg
      obtain ⟨s', log', rest', g1, g2, g3, g4, g5, g6, g7, -, g9⟩ := finish_bg (capB := capB) hP hcap hnet h hb (by omega)
      exact ⟨s', log', rest', g1, g2, g3, g5, g9, .inr ⟨g7, by omega⟩⟩

/-- The decoy thread can end after the writer has been dropped. -/
theorem end_bg (hP : Lawful P) (hcap : 0 < capA) {s : ShapedLink RA RB} (hnet : s.b.run.net = s.a.run.net.swap)
    (h : ShapedLane P prof kL kP n0 log rest s.a s.b) (hlen : n0 + log.length + 3 < 2 ^ 32) (ho : s.a.sys.owner = none)
    (hsd : s.a.sys.shutdown = true) :
    ∃ s' log' rest', CanReach capA capB P prof s s' ∧ s'.b.run.net = s'.a.run.net.swap ∧
      ShapedLane P prof kL kP n0 log' rest' s'.a s'.b ∧ log'.length ≤ log.length + 1 ∧ s'.a.sys.owner = none ∧
      s'.a.sys.called = s.a.sys.called ∧ s'.a.sys.bg = .finished ∧ s'.a.sys.app = s.a.sys.app := by
  have fromChecking : ∀ {s : ShapedLink RA RB} {log : List Payload} {rest : Bytes}, s.b.run.net = s.a.run.net.swap →
      ShapedLane P prof kL kP n0 log rest s.a s.b → n0 + log.length + 1 < 2 ^ 32 → s.a.sys.owner = none → s.a.sys.shutdown = true →
      s.a.sys.bg = .checking → ∃ s' log' rest', CanReach capA capB P prof s s' ∧ s'.b.run.net = s'.a.run.net.swap ∧
      ShapedLane P prof kL kP n0 log' rest' s'.a s'.b ∧ log'.length ≤ log.length ∧ s'.a.sys.owner = none ∧
      s'.a.sys.called = s.a.sys.called ∧ s'.a.sys.bg = .finished ∧ s'.a.sys.app = s.a.sys.app := by
    intro s log rest hnet h hlen ho hsd hb
    obtain ⟨s', g1, g2, g3, g4⟩ := between_step (capA := capA) (capB := capB) (prof := prof) (l := .bg) hP h hlen (.inr rfl)
      ⟨fun h => (by cases h), fun _ pc' h' => by rw [hb] at h'; cases h'⟩ (by simp [ShapedSys.asks, hb])
    simp only [ShapedSys.step, ShapedSys.bgStep, hb, hsd, if_true] at g4
    exact ⟨s', log, rest, g1, g2, g3, Nat.le_refl _, by rw [g4]; exact ho, by rw [g4], by rw [g4], by rw [g4]⟩
  have fromTrying : ∀ {s : ShapedLink RA RB} {log : List Payload} {rest : Bytes}, s.b.run.net = s.a.run.net.swap →
      ShapedLane P prof kL kP n0 log rest s.a s.b → n0 + log.length + 3 < 2 ^ 32 → s.a.sys.owner = none → s.a.sys.shutdown = true →
      s.a.sys.bg = .trying → ∃ s' log' rest', CanReach capA capB P prof s s' ∧ s'.b.run.net = s'.a.run.net.swap ∧
      ShapedLane P prof kL kP n0 log' rest' s'.a s'.b ∧ log'.length ≤ log.length + 1 ∧ s'.a.sys.owner = none ∧
      s'.a.sys.called = s.a.sys.called ∧ s'.a.sys.bg = .finished ∧ s'.a.sys.app = s.a.sys.app := by
    intro s log rest hnet h hlen ho hsd hb
    obtain ⟨s1, g1, g2, g3, g4⟩ := between_step (capA := capA) (capB := capB) (prof := prof) (l := .bg) hP h (by omega) (.inr rfl)
      ⟨fun h => (by cases h), fun _ pc' h' => by rw [hb] at h'; cases h'⟩ (by simp [ShapedSys.asks, hb])
    simp only [ShapedSys.step, ShapedSys.bgStep, hb, ho, h.sender.2.1, Bool.false_eq_true, if_false] at g4
    obtain ⟨s2, log2, rest2, i1, i2, i3, i4, i5, i6, i7, i8, i9⟩ := finish_bg (capB := capB) (pc := .start .cover) hP hcap g2 g3 (by rw [g4])
      (by simp only [JobPc.packets]; omega)
    simp only [JobPc.packets] at i4
    obtain ⟨s3, log3, rest3, j1, j2, j3, j4, j5, j6, j7, j8⟩ := fromChecking i2 i3 (by omega) i5 (by rw [i8, g4]; exact hsd) i6
    exact ⟨s3, log3, rest3, (g1.trans i1).trans j1, j2, j3, by omega, j5, by rw [j6, i9, g4], j7, by rw [j8, i7, g4]⟩
  cases hb : s.a.sys.bg with
  | checking =>
    obtain ⟨s', log', rest', g1, g2, g3, g4, g5⟩ := fromChecking hnet h (by omega) ho hsd hb
    exact ⟨s', log', rest', g1, g2, g3, by omega, g5⟩
  | sleeping =>
    obtain ⟨s1, g1, g2, g3, g4⟩ := between_step (capA := capA) (capB := capB) (prof := prof) (l := .bg) hP h (by omega) (.inr rfl)
      ⟨fun h => (by cases h), fun _ pc' h' => by rw [hb] at h'; cases h'⟩ (by simp [ShapedSys.asks, hb])
    simp only [ShapedSys.step, ShapedSys.bgStep, hb] at g4
    obtain ⟨s3, log3, rest3, j1, j2, j3, j4, j5, j6, j7, j8⟩ := fromTrying g2 g3 hlen (by rw [g4]; exact ho) (by rw [g4]; exact hsd) (by rw [g4])
    exact ⟨s3, log3, rest3, g1.trans j1, j2, j3, j4, j5, by rw [j6, g4], j7, by rw [j8, g4]⟩
  | trying => exact fromTrying hnet h hlen ho hsd hb
  | covering pc =>
    have := h.sender.2.2.2.2.2.2
    rw [ho] at this
    have := this.2.1
    rw [hb] at this
    exact this.elim
  | finished => exact ⟨s, log, rest, .refl s, hnet, h, by omega, ho, rfl, hb, rfl⟩
  | panicked => exact absurd hb h.sender.2.2.2.2.2.1.1

/-- No call is in progress. -/
def AppPc.AtRest : AppPc → Prop
  | .idle | .gone => True
  | _ => False

/-- Whatever has happened, what is in progress can come to an end, if the peer reads. -/
theorem settle (hP : Lawful P) (hcap : 0 < capA) {s : ShapedLink RA RB} (hnet : s.b.run.net = s.a.run.net.swap)
    (h : ShapedLane P prof kL kP n0 log rest s.a s.b) (hlen : n0 + log.length + 5 < 2 ^ 32) :
    ∃ s' log' rest', CanReach capA capB P prof s s' ∧ s'.b.run.net = s'.a.run.net.swap ∧
      ShapedLane P prof kL kP n0 log' rest' s'.a s'.b ∧ s'.a.sys.owner = none ∧ s'.a.sys.called = s.a.sys.called ∧
      s'.a.sys.app.AtRest ∧ (s.a.sys.app = .joining → s'.a.sys.app = .gone) ∧ log'.length ≤ log.length + 3 := by
  obtain ⟨s1, log1, rest1, g1, g2, g3, g4, g5, g6⟩ := release (capB := capB) hP hcap hnet h (by omega)
  rcases g6 with ⟨g6, g7, p, pc, g8⟩ | ⟨g6, g7⟩
  · exact ⟨s1, log1, rest1, g1, g2, g3, g4, g5, by rw [g6]; trivial, fun h => (by rw [g8] at h; cases h), by omega⟩
  · cases ha : s.a.sys.app with
    | idle => exact ⟨s1, log1, rest1, g1, g2, g3, g4, g5, by rw [g6, ha]; trivial, fun h => (by cases h), by omega⟩
    | gone => exact ⟨s1, log1, rest1, g1, g2, g3, g4, g5, by rw [g6, ha]; trivial, fun h => (by cases h), by omega⟩
    | writing p pc =>
      rw [ha] at g6
      have := g3.sender.2.2.2.2.2.2
      rw [g4] at this
      have := this.1
      rw [g6] at this
      exact this.elim
    | locking p =>
      rw [ha] at g6
      obtain ⟨s2, i1, i2, i3, i4⟩ := between_step (capA := capA) (capB := capB) (prof := prof) (l := .app) hP g3 (by omega) (.inl rfl)
        ⟨fun _ p' pc' h' => (by rw [g6] at h'; cases h'), fun h => (by cases h)⟩ (by simp [ShapedSys.asks, g6])
      simp only [ShapedSys.step, ShapedSys.appStep, g6, g4, g3.sender.2.1, Bool.false_eq_true, if_false] at i4
      obtain ⟨s3, log3, rest3, j1, j2, j3, j4, j5, j6, j7⟩ := finish_app (capB := capB) (p := p) (pc := .start (.write p)) hP hcap i2 i3 (by rw [i4])
        (by simp only [JobPc.packets]; omega)
      simp only [JobPc.packets] at j4
      exact ⟨s3, log3, rest3, (g1.trans i1).trans j1, j2, j3, j5, by rw [j7, i4]; exact g5, by rw [j6]; trivial, fun h => (by cases h), by omega⟩
    | joining =>
      rw [ha] at g6
      obtain ⟨s2, log2, rest2, i1, i2, i3, i4, i5, i6, i7, i8⟩ := end_bg (capB := capB) hP hcap g2 g3 (by omega) g4 (g3.sender.2.2.2.2.2.1.2 g6)
      rw [g6] at i8
      obtain ⟨s3, j1, j2, j3, j4⟩ := between_step (capA := capA) (capB := capB) (prof := prof) (l := .app) hP i3 (by omega) (.inl rfl)
        ⟨fun _ p' pc' h' => (by rw [i8] at h'; cases h'), fun h => (by cases h)⟩ (by simp [ShapedSys.asks, i8])
      simp only [ShapedSys.step, ShapedSys.appStep, i8, i7] at j4
      simp only [true_or, if_true] at j4
      exact ⟨s3, log2, rest2, (g1.trans i1).trans j1, j2, j3, by rw [j4]; exact i5, by rw [j4]; simp only; rw [i6, g5], by rw [j4]; trivial,
        fun _ => by rw [j4], by omega⟩

end Bip324
