import Verif.Lemmas.ShapedLane

/-!
# A shaped party whose channel is full
-/

namespace Bip324

variable {P : Prims} {prof : Profile} {R RA RB : Rng}

/-- What a call of the transport does to the channels. -/
theorem ask_net {cap k : Nat} {q : Option NetReq} {r r' : ConnRun (Bytes × Bytes)} {sink : Sink}
    (h : (endConn cap k).ask q r = some (r', sink)) :
    r'.net.2 = r.net.2 ∧ (r'.net.1 = r.net.1 ∨ r'.net.1.length ≤ cap) := by
  cases q with
  | none => cases h; exact ⟨rfl, .inl rfl⟩
  | some q =>
    cases q with
    | flush => cases h; exact ⟨rfl, .inl rfl⟩
    | write buf =>
      simp only [Conn.ask, Conn.writeRun, endConn] at h
      by_cases h1 : buf = []
      · simp only [if_pos h1] at h
        cases h
        exact ⟨rfl, .inl rfl⟩
      · simp only [if_neg h1] at h
        by_cases h2 : cap ≤ r.net.1.length
        · simp only [if_pos h2] at h
          cases h
        · simp only [if_neg h2] at h
          cases h
          refine ⟨rfl, .inr ?_⟩
          simp only [List.length_append, List.length_take]
          omega

/-- A step of the writing side leaves alone what the peer has sent, and does not overfill the channel. -/
theorem sys_net (s : ShapedN (Bytes × Bytes) R) (cap k : Nat) (l : SysLabel) :
    (s.step (endConn cap k) P prof (.sys l)).run.net.2 = s.run.net.2 ∧
    ((s.step (endConn cap k) P prof (.sys l)).run.net.1 = s.run.net.1 ∨ (s.step (endConn cap k) P prof (.sys l)).run.net.1.length ≤ cap) := by
  cases l with
  | read => exact ⟨rfl, .inl rfl⟩
  | _ =>
    simp only [ShapedN.step]
    split
    · exact ⟨rfl, .inl rfl⟩
    · rename_i h
      exact ask_net h

/-- A step of the reader leaves alone what this side has sent. -/
theorem reading_net (s : ShapedN (Bytes × Bytes) R) (cap k : Nat) :
    (s.step (endConn cap k) P prof .reading).run.net.1 = s.run.net.1 := by
  have rd : ∀ {x : Bytes × Bool} {r : ConnRun (Bytes × Bytes)} {n : Nat} {y : (Bytes × Bool) × ConnRun (Bytes × Bytes)} {e : ReadRes},
      n ≠ 0 → syncN.read (endConn cap k).readRun (x, r) n = some (y, e) → y.2.net.1 = r.net.1 := by
    intro x r n y e hn h
    rcases sess_end (cap := cap) (k := k) (s := x) (r := r) hn with ⟨-, h2⟩ | ⟨s', r', b, bs, h2, -, h3, -⟩
    · rw [h2] at h; cases h
    · rw [h2] at h
      cases h
      exact h3
  have key : ∀ {h' : SyncHalf} {r' : ConnRun (Bytes × Bytes)} {o : Option (Outcome ProtocolError Payload)},
      s.half.step (endConn cap k) P prof s.run = some (h', r', o) → r'.net.1 = s.run.net.1 := by
    intro h' r' o h
    unfold SyncHalf.step at h
    split at h
    · cases h
    · split at h
      · split at h <;> cases h <;> rfl
      · rename_i hn
        split at h
        · cases h
        · rename_i g; cases h; exact rd hn g
        · rename_i g; cases h; exact rd hn g
        · rename_i g; split at h <;> cases h <;> exact rd hn g
    · split at h
      · split at h
        · cases h; rfl
        · cases h; rfl
        · split at h <;> cases h <;> rfl
      · rename_i hn
        split at h
        · cases h
        · rename_i g; cases h; exact rd hn g
        · rename_i g; cases h; exact rd hn g
        · rename_i g; split at h <;> cases h <;> exact rd hn g
  simp only [ShapedN.step]
  split
  · rfl
  · rename_i h; exact key h
  · rename_i h; exact key h

/-- The decoy thread holds the lock and waits for the peer to read. -/
structure Jammed (cap : Nat) (s : ShapedN (Bytes × Bytes) R) : Prop where
  owner : s.sys.owner = some .bg
  app : s.sys.app.free
  bg : ∃ pc b bs, s.sys.bg = .covering pc ∧ (∀ r, pc ≠ .done r) ∧ pc.asks = some (.write (b :: bs))
  full : cap ≤ s.run.net.1.length

/-- Whatever this party does, it stays so. -/
theorem Jammed.step {cap : Nat} {s : ShapedN (Bytes × Bytes) R} (h : Jammed cap s) (k : Nat) (act : ShapedAct) :
    Jammed cap (s.step (endConn cap k) P prof act.label) ∧
    (s.step (endConn cap k) P prof act.label).sys.returned = s.sys.returned ∧
    (s.sys.app ≠ .idle → (s.step (endConn cap k) P prof act.label).sys.app = s.sys.app) ∧
    (s.step (endConn cap k) P prof act.label).run.net.1 = s.run.net.1 := by
  obtain ⟨h1, h2, ⟨pc, b, bs, h3, h4, h5⟩, h6⟩ := h
  have hblock : ∀ k, (endConn cap k).ask pc.asks s.run = none := by
    intro k
    simp only [h5, Conn.ask, Conn.writeRun, endConn, reduceCtorEq, if_false, if_pos h6]
  cases act with
  | reading =>
    have hn := reading_net (P := P) (prof := prof) s cap k
    have hs : (s.step (endConn cap k) P prof .reading).sys.owner = s.sys.owner ∧ (s.step (endConn cap k) P prof .reading).sys.app = s.sys.app ∧
        (s.step (endConn cap k) P prof .reading).sys.bg = s.sys.bg ∧ (s.step (endConn cap k) P prof .reading).sys.returned = s.sys.returned := by
      simp only [ShapedN.step]
      split <;> exact ⟨rfl, rfl, rfl, rfl⟩
    obtain ⟨e1, e2, e3, e4⟩ := hs
    exact ⟨⟨by rw [ShapedAct.label, e1, h1], by rw [ShapedAct.label, e2]; exact h2, ⟨pc, b, bs, by rw [ShapedAct.label, e3, h3], h4, h5⟩,
      by rw [ShapedAct.label, hn]; exact h6⟩, e4, fun _ => e2, hn⟩
  | sys l =>
    cases l with
    | read => exact ⟨⟨h1, h2, ⟨pc, b, bs, h3, h4, h5⟩, h6⟩, rfl, fun _ => rfl, rfl⟩
    | bg =>
      have : s.step (endConn cap k) P prof (.sys .bg) = s := by rw [bg_step h3 h4, hblock]
      simp only [ShapedAct.label]
      rw [this]
      exact ⟨⟨h1, h2, ⟨pc, b, bs, h3, h4, h5⟩, h6⟩, rfl, fun _ => rfl, rfl⟩
    | call p =>
      simp only [ShapedAct.label]
      rw [silent_step (by simp) rfl]
      refine (fun x => ⟨x.1, x.2.1, x.2.2, rfl⟩ : (_ ∧ _ ∧ _) → _) ?_
      simp only [ShapedSys.step]
      split
      · rename_i ha
        exact ⟨⟨h1, trivial, ⟨pc, b, bs, h3, h4, h5⟩, h6⟩, rfl, fun hc => absurd ha hc⟩
      · exact ⟨⟨h1, h2, ⟨pc, b, bs, h3, h4, h5⟩, h6⟩, rfl, fun _ => rfl⟩
    | drop =>
      simp only [ShapedAct.label]
      rw [silent_step (by simp) rfl]
      refine (fun x => ⟨x.1, x.2.1, x.2.2, rfl⟩ : (_ ∧ _ ∧ _) → _) ?_
      simp only [ShapedSys.step]
      split
      · rename_i ha
        exact ⟨⟨h1, trivial, ⟨pc, b, bs, h3, h4, h5⟩, h6⟩, rfl, fun hc => absurd ha hc⟩
      · exact ⟨⟨h1, h2, ⟨pc, b, bs, h3, h4, h5⟩, h6⟩, rfl, fun _ => rfl⟩
    | app =>
      simp only [ShapedAct.label]
      have hq : s.sys.asks .app = none := by
        simp only [ShapedSys.asks]
        split
        · rename_i ha; rw [ha] at h2; exact h2.elim
        · rfl
      have : s.step (endConn cap k) P prof (.sys .app) = { s with sys := { s.sys with ws := s.sys.ws.over ⟨[], [], []⟩ } } := by
        rw [silent_step (by simp) hq]
        simp only [ShapedSys.step, ShapedSys.appStep]
        cases ha : s.sys.app with
        | idle => rfl
        | gone => rfl
        | locking p => simp only [h1]
        | joining => simp only [h3, reduceCtorEq, or_self, if_false]
        | writing p pc => rw [ha] at h2; exact h2.elim
      rw [this]
      exact ⟨⟨h1, h2, ⟨pc, b, bs, h3, h4, h5⟩, h6⟩, rfl, fun _ => rfl, rfl⟩

/-- The peer does anything but read. -/
theorem Jammed.peer {cap : Nat} {a : ShapedN (Bytes × Bytes) RA} {b : ShapedN (Bytes × Bytes) RB} (h : Jammed cap a)
    (hnet : b.run.net.2 = a.run.net.1) (N : Conn (Bytes × Bytes)) (cap' k : Nat) {act : ShapedAct} (hact : act ≠ .reading) :
    Jammed cap (a.step N P prof (.peer (b.step (endConn cap' k) P prof act.label).run.net.swap)) := by
  refine ⟨h.owner, h.app, h.bg, ?_⟩
  cases act with
  | reading => exact absurd rfl hact
  | sys l =>
    show cap ≤ (b.step (endConn cap' k) P prof (.sys l)).run.net.2.length
    rw [(sys_net b cap' k l).1, hnet]
    exact h.full

/-! ## Filling the channel with decoys -/

/-- Steps of the decoy thread. -/
def bgSteps (cap : Nat) (P : Prims) (prof : Profile) : Nat → ShapedN (Bytes × Bytes) R → ShapedN (Bytes × Bytes) R
  | 0, s => s
  | n + 1, s => bgSteps cap P prof n (s.step (endConn cap 0) P prof (.sys .bg))

theorem bgSteps_add (cap n m : Nat) (s : ShapedN (Bytes × Bytes) R) :
    bgSteps cap P prof (n + m) s = bgSteps cap P prof m (bgSteps cap P prof n s) := by
  induction n generalizing s with
  | zero => rw [Nat.zero_add]; rfl
  | succ n ih => rw [Nat.succ_add]; exact ih _

theorem rest_asks {pc : JobPc} (h : pc.rest ≠ []) : (∀ r, pc ≠ .done r) ∧ ∃ b bs, pc.asks = some (.write (b :: bs)) := by
  have key : ∀ w : WProc, w.rest ≠ [] → ∃ b bs, w.asks = some (.write (b :: bs)) := by
    intro w hw
    cases w with
    | sending bs =>
      cases bs with
      | nil => exact absurd rfl hw
      | cons b bs => exact ⟨b, bs, rfl⟩
    | _ => exact absurd rfl hw
  cases pc with
  | padding w q => exact ⟨by simp, key w h⟩
  | payload w => exact ⟨by simp, key w h⟩
  | cover w => exact ⟨by simp, key w h⟩
  | _ => exact absurd rfl h

/-- What the decoy thread leaves alone. -/
def SameApp (s s' : ShapedN (Bytes × Bytes) R) : Prop :=
  s'.sys.app = s.sys.app ∧ s'.sys.returned = s.sys.returned ∧ s'.sys.called = s.sys.called ∧ s'.sys.shutdown = s.sys.shutdown ∧
  s'.sys.ws.shaper.config = s.sys.ws.shaper.config ∧ s'.sys.reads = s.sys.reads ∧ s'.half = s.half ∧ s'.run.net.2 = s.run.net.2

theorem SameApp.rfl' (s : ShapedN (Bytes × Bytes) R) : SameApp s s := ⟨rfl, rfl, rfl, rfl, rfl, rfl, rfl, rfl⟩

theorem SameApp.trans {s s' s'' : ShapedN (Bytes × Bytes) R} (h : SameApp s s') (h' : SameApp s' s'') : SameApp s s'' := by
  obtain ⟨a1, a2, a3, a4, a5, a6, a7, a8⟩ := h
  obtain ⟨b1, b2, b3, b4, b5, b6, b7, b8⟩ := h'
  exact ⟨b1.trans a1, b2.trans a2, b3.trans a3, b4.trans a4, b5.trans a5, b6.trans a6, b7.trans a7, b8.trans a8⟩

variable {kL kP : Bytes}

theorem job_not_start {pc : JobPc} (hst : ∀ j, pc ≠ .start j) (f : Flavour) (ws : WriterState R) (j : Job) : (pc.step f P prof ws).2 ≠ .start j := by
  cases pc with
  | start j' => exact absurd rfl (hst j')
  | padding w q =>
    cases w with
    | done r => cases r <;> simp [JobPc.step]
    | _ => simp [JobPc.step]
  | payload w => cases w <;> simp [JobPc.step]
  | cover w => cases w <;> simp [JobPc.step]
  | done r => simp [JobPc.step]

theorem length_le_wireSize (ps : List Payload) : ps.length ≤ wireSize ps := by
  induction ps with
  | nil => simp
  | cons q qs ih => simp only [wireSize, List.map_cons, List.sum_cons, List.length_cons] at ih ⊢; omega

/-- A round of the decoy thread, once it has drawn a decoy: the channel gets full, or the round ends. -/
theorem cover_runs (hP : Lawful P) {cap m : Nat} {log : List Payload} {rest : Bytes} {s : ShapedN (Bytes × Bytes) R}
    (h : SenderAt P kL kP m log s.sys rest) {pc : JobPc} (hb : s.sys.bg = .covering pc) (hst : ∀ j, pc ≠ .start j)
    (hm : m + pc.packets + 1 < 2 ^ 32) :
    ∃ n, SameApp s (bgSteps cap P prof n s) ∧ (Jammed cap (bgSteps cap P prof n s) ∨
      (∃ log', SenderAt P kL kP (m + pc.packets) log' (bgSteps cap P prof n s).sys [] ∧
        (bgSteps cap P prof n s).sys.owner = none ∧ (bgSteps cap P prof n s).sys.bg = .checking ∧
        ((bgSteps cap P prof n s).run.net.1 = s.run.net.1 ∨ (bgSteps cap P prof n s).run.net.1.length ≤ cap) ∧
        s.run.net.1.length + rest.length + pc.packets ≤ (bgSteps cap P prof n s).run.net.1.length)) := by
  generalize hC : pc.cost = C
  induction C using Nat.strongRecOn generalizing s pc m log rest with
  | _ C ih =>
    by_cases hd : ∃ r, pc = .done r
    · obtain ⟨r, rfl⟩ := hd
      obtain ⟨new, rest', hs, he⟩ := sender_step (prof := prof) (l := .bg) hP (by omega) h (by simp) (by simp) cap 0
      obtain ⟨rfl, rfl⟩ := he ⟨fun h => (by cases h), fun _ pc' h' => by rw [hb] at h'; cases h'; exact ⟨r, rfl⟩⟩
      have e0 := silent_step (N := endConn cap 0) (P := P) (prof := prof) (s := s) (l := .bg) (by simp) (by simp [ShapedSys.asks, hb, JobPc.asks])
      simp only [ShapedSys.step, ShapedSys.bgStep, hb] at e0
      have hsd := hs.2.2.1
      rw [List.append_nil] at hsd
      have hbg : (s.step (endConn cap 0) P prof (.sys .bg)).sys.bg = .checking := by
        have := hsd.2.2.2.2.2.1.1
        rw [e0] at this ⊢
        simp only at this ⊢
        split at this
        · exact absurd rfl this
        · rename_i hr; rw [if_neg hr]
      have hown : (s.step (endConn cap 0) P prof (.sys .bg)).sys.owner = none := by rw [e0]
      have hrest : rest' = [] := by
        have := hsd.2.2.2.2.2.2
        rw [hown] at this
        exact this.2.2.1
      subst hrest
      refine ⟨1, ?_, .inr ⟨log, hsd, hown, hbg, .inl ?_, ?_⟩⟩
      · show SameApp s (s.step (endConn cap 0) P prof (.sys .bg))
        rw [e0]; exact ⟨rfl, rfl, rfl, rfl, rfl, rfl, rfl, rfl⟩
      · show (s.step (endConn cap 0) P prof (.sys .bg)).run.net.1 = _
        rw [e0]
      · show _ ≤ (s.step (endConn cap 0) P prof (.sys .bg)).run.net.1.length
        rw [e0]; simp [JobPc.packets]
    · have hnd : ∀ r, pc ≠ .done r := fun r h => hd ⟨r, h⟩
      rcases bg_goes (prof := prof) hP (by omega) h hb hnd cap 0 with ⟨-, g2, g3⟩ |
        ⟨s', pc', new, rest', g1, g2, g3, g4, g5, g6, g7, g8, g9, g10, g11, g12⟩
      · have hs := h.2.2.2.2.2.2
        have hown : s.sys.owner = some .bg := by
          cases hc : s.sys.owner with
          | none => rw [hc] at hs; have := hs.2.1; rw [hb] at this; exact this.elim
          | some t =>
            cases t with
            | bg => rfl
            | app => rw [hc] at hs; obtain ⟨p', pc', -, h, -⟩ := hs; rw [hb] at h; exact h.elim
        rw [hown] at hs
        obtain ⟨pc', hb', hf, -, rfl, -⟩ := hs
        rw [hb] at hb'
        cases hb'
        obtain ⟨b, bs, hq⟩ := (rest_asks g3).2
        exact ⟨0, SameApp.rfl' s, .inl ⟨hown, hf, ⟨pc, b, bs, hb, hnd, hq⟩, g2⟩⟩
      · have hst' : ∀ j, pc' ≠ .start j := by
          have hbs := bg_step (N := endConn cap 0) (P := P) (prof := prof) hb hnd
          rw [g1] at hbs
          intro j
          split at hbs
          · rw [hbs, hb] at g3
            cases g3
            exact hst j
          · rw [hbs] at g3
            cases g3
            exact job_not_start hst _ _ j
        have hp := g11 hst
        have hsame : SameApp s s' := ⟨g6, g8, g7, g9, g12, g2.2.2.2.1.2.1, g2.2.2.2.1.1, g2.2.2.2.1.2.2.2⟩
        obtain ⟨n, i1, i2⟩ := ih pc'.cost (by omega) g2.2.2.1 g3 hst' (by omega) rfl
        have en : bgSteps cap P prof (n + 1) s = bgSteps cap P prof n s' := by
          show bgSteps cap P prof n (s.step (endConn cap 0) P prof (.sys .bg)) = _
          rw [g1]
        refine ⟨n + 1, ?_, ?_⟩
        · rw [en]; exact hsame.trans i1
        · rw [en]
          rcases i2 with i2 | ⟨log', j1, j2, j3, j4, j5⟩
          · exact .inl i2
          · right
            have hn := (sys_net (P := P) (prof := prof) s cap 0 .bg).2
            rw [g1] at hn
            have hl := congrArg List.length g2.2.2.2.2
            simp only [List.length_append, payloadStream_length hP] at hl
            have hw := length_le_wireSize new
            refine ⟨log', by rw [← hp, ← Nat.add_assoc]; exact j1, j2, j3, ?_, by omega⟩
            rcases j4 with j4 | j4
            · rw [j4]; exact hn
            · exact .inr j4

/-- The decoy thread is about to begin a round. -/
structure Rounds (P : Prims) (kL kP : Bytes) (m : Nat) (log : List Payload) (s : ShapedN (Bytes × Bytes) R) : Prop where
  sender : SenderAt P kL kP m log s.sys []
  owner : s.sys.owner = none
  bg : s.sys.bg = .checking
  on : s.sys.shutdown = false
  decoys : s.sys.ws.shaper.config.decoy = .random

/-- The decoy thread takes the lock. -/
theorem takes_lock {cap m : Nat} {log : List Payload} {s : ShapedN (Bytes × Bytes) R} (h : Rounds P kL kP m log s) :
    bgSteps cap P prof 3 s = { s with sys := { s.sys with ws := s.sys.ws.over ⟨[], [], []⟩, owner := some .bg, bg := .covering (.start .cover) } } := by
  obtain ⟨⟨ws, owner, poisoned, shutdown, app, bg, reader, called, returned, reads⟩, half, run⟩ := s
  obtain ⟨h1, h2, h3, h4, -⟩ := h
  have hp := h1.2.1
  simp only at h2 h3 h4 hp
  subst h2 h3 h4 hp
  simp only [bgSteps, ShapedN.step, ShapedSys.asks, Conn.ask, ShapedSys.step, ShapedSys.bgStep, Bool.false_eq_true, if_false]
  rfl

/-- One round: it draws no decoy, or the channel gets full, or there is more in the channel. -/
theorem one_round (hP : Lawful P) {cap m : Nat} {log : List Payload} {s : ShapedN (Bytes × Bytes) R} (h : Rounds P kL kP m log s)
    (hm : m + 2 < 2 ^ 32) :
    ∃ n, SameApp s (bgSteps cap P prof n s) ∧
      (((R.range s.sys.ws.shaper.rng 0 99).2 < 85 ∧ Rounds P kL kP m log (bgSteps cap P prof n s) ∧
          (bgSteps cap P prof n s).run.net.1 = s.run.net.1 ∧
          (bgSteps cap P prof n s).sys.ws.shaper.rng = (R.range s.sys.ws.shaper.rng 0 99).1) ∨
        Jammed cap (bgSteps cap P prof n s) ∨
        (∃ log', Rounds P kL kP (m + 1) log' (bgSteps cap P prof n s) ∧ s.run.net.1.length < (bgSteps cap P prof n s).run.net.1.length ∧
          (bgSteps cap P prof n s).run.net.1.length ≤ cap)) := by
  have h3 := takes_lock (cap := cap) (prof := prof) h
  have h0 := h
  obtain ⟨hs, ho, hb, hon, hdec⟩ := h
  obtain ⟨c1, c2, c3, c4, c5, c6, c7⟩ := hs
  rw [ho] at c7
  obtain ⟨c7, c8, -, c9⟩ := c7
  by_cases hroll : (R.range s.sys.ws.shaper.rng 0 99).2 < 85
  · -- no decoy
    have e4 : bgSteps cap P prof 4 s = { s with sys := { s.sys with
        ws := { s.sys.ws.over ⟨[], [], []⟩ with shaper := ⟨s.sys.ws.shaper.config, (R.range s.sys.ws.shaper.rng 0 99).1⟩, recorded := s.sys.ws.recorded ++ [] },
        owner := some .bg, bg := .covering (.done (.ok ())) } } := by
      rw [show 4 = 3 + 1 from rfl, bgSteps_add, h3]
      simp only [bgSteps]
      rw [bg_step (pc := .start .cover) rfl (by simp)]
      simp only [JobPc.asks, Conn.ask, JobPc.step, WriterState.over, Shaper.decoy_random hdec]
      rw [if_pos hroll]
    have e5 : bgSteps cap P prof 5 s = { s with sys := { s.sys with
        ws := { s.sys.ws.over ⟨[], [], []⟩ with shaper := ⟨s.sys.ws.shaper.config, (R.range s.sys.ws.shaper.rng 0 99).1⟩, recorded := s.sys.ws.recorded ++ [] } } } := by
      rw [show 5 = 4 + 1 from rfl, bgSteps_add, e4]
      simp only [bgSteps]
      rw [silent_step (by simp) rfl]
      simp only [ShapedSys.step, ShapedSys.bgStep, WriterState.over, c2, hb, ho]
      rfl
    refine ⟨5, ?_, .inl ⟨hroll, ?_, ?_, ?_⟩⟩
    · rw [e5]; exact ⟨rfl, rfl, rfl, rfl, rfl, rfl, rfl, rfl⟩
    · rw [e5]
      refine ⟨⟨c1, c2, c3, c4, c5, c6, ?_⟩, ho, hb, hon, hdec⟩
      simp only [ho]
      exact ⟨c7, c8, trivial, c9⟩
    · rw [e5]
    · rw [e5]
  · obtain ⟨r1, r2⟩ := R.range_mem (R.range s.sys.ws.shaper.rng 0 99).1 1 MAX_DECOY_SIZE_BYTES (by decide)
    obtain ⟨d1, d2, d3⟩ := readable_decoy r2
    have e4 : bgSteps cap P prof 4 s = { s with sys := { s.sys with
        ws := { s.sys.ws.over ⟨[], [], []⟩ with
          shaper := ⟨s.sys.ws.shaper.config, (R.range (R.range s.sys.ws.shaper.rng 0 99).1 1 MAX_DECOY_SIZE_BYTES).1⟩,
          recorded := s.sys.ws.recorded ++ [(R.range (R.range s.sys.ws.shaper.rng 0 99).1 1 MAX_DECOY_SIZE_BYTES).2] },
        owner := some .bg,
        bg := .covering (.cover (.start (.decoy (zeros (R.range (R.range s.sys.ws.shaper.rng 0 99).1 1 MAX_DECOY_SIZE_BYTES).2)))) } } := by
      rw [show 4 = 3 + 1 from rfl, bgSteps_add, h3]
      simp only [bgSteps]
      rw [bg_step (pc := .start .cover) rfl (by simp)]
      simp only [JobPc.asks, Conn.ask, JobPc.step, WriterState.over, Shaper.decoy_random hdec]
      rw [if_neg hroll]
    generalize hs4 : bgSteps cap P prof 4 s = s4 at e4
    have hsame : SameApp s s4 := by rw [e4]; exact ⟨rfl, rfl, rfl, rfl, rfl, rfl, rfl, rfl⟩
    have hnet : s4.run = s.run := by rw [e4]
    have hbg : s4.sys.bg = .covering (.cover (.start (.decoy (zeros (R.range (R.range s.sys.ws.shaper.rng 0 99).1 1 MAX_DECOY_SIZE_BYTES).2)))) := by
      rw [e4]
    have hsd : SenderAt P kL kP m log s4.sys [] := by
      rw [e4]
      exact ⟨c1, c2, c3, c4, c5, ⟨by simp, c6.2⟩, _, rfl, c7, ⟨rfl, d2, d1⟩, rfl, c9⟩
    obtain ⟨n, i1, i2⟩ := cover_runs (cap := cap) (prof := prof) hP hsd hbg (by simp) (by simp only [JobPc.packets, WProc.packets]; omega)
    have en : bgSteps cap P prof (4 + n) s = bgSteps cap P prof n s4 := by rw [bgSteps_add, hs4]
    refine ⟨4 + n, by rw [en]; exact hsame.trans i1, .inr ?_⟩
    rw [en]
    rcases i2 with i2 | ⟨log', j1, j2, j3, j4, j5⟩
    · exact .inl i2
    · simp only [JobPc.packets, WProc.packets] at j1 j5
      obtain ⟨a1, a2, a3, a4, a5, -⟩ := hsame.trans i1
      rw [hnet] at j4 j5
      refine .inr ⟨log', ⟨j1, j2, j3, by rw [a4]; exact hon, by rw [a5]; exact hdec⟩, by omega, ?_⟩
      rcases j4 with j4 | j4
      · rw [j4] at j5; omega
      · exact j4

/-- The decoy thread can fill the channel. -/
theorem fills (hP : Lawful P) (hR : ∀ x, R.Rolls x) {cap m : Nat} {log : List Payload} {s : ShapedN (Bytes × Bytes) R} (h : Rounds P kL kP m log s)
    (hm : m + (cap - s.run.net.1.length) + 2 < 2 ^ 32) :
    ∃ n, SameApp s (bgSteps cap P prof n s) ∧ Jammed cap (bgSteps cap P prof n s) := by
  generalize hD : cap - s.run.net.1.length = D
  induction D using Nat.strongRecOn generalizing s m log with
  | _ D ih =>
    generalize hx : s.sys.ws.shaper.rng = x
    have hroll := hR x
    induction hroll generalizing s log with
    | now x hx' =>
      obtain ⟨n, g1, g2⟩ := one_round (cap := cap) (prof := prof) hP h (by omega)
      rcases g2 with ⟨g2, -⟩ | g2 | ⟨log', g2, g3, g4⟩
      · rw [hx] at g2; omega
      · exact ⟨n, g1, g2⟩
      · obtain ⟨n', i1, i2⟩ := ih (cap - (bgSteps cap P prof n s).run.net.1.length) (by omega) g2 (by omega) rfl
        refine ⟨n + n', ?_, ?_⟩
        · rw [bgSteps_add]; exact g1.trans i1
        · rw [bgSteps_add]; exact i2
    | later x _ ihx =>
      obtain ⟨n, g1, g2⟩ := one_round (cap := cap) (prof := prof) hP h (by omega)
      rcases g2 with ⟨-, g2, g3, g4⟩ | g2 | ⟨log', g2, g3, g4⟩
      · obtain ⟨n', i1, i2⟩ := ihx g2 (by rw [g3]; exact hm) (by rw [g3]; exact hD) (by rw [g4, hx])
        refine ⟨n + n', ?_, ?_⟩
        · rw [bgSteps_add]; exact g1.trans i1
        · rw [bgSteps_add]; exact i2
      · exact ⟨n, g1, g2⟩
      · obtain ⟨n', i1, i2⟩ := ih (cap - (bgSteps cap P prof n s).run.net.1.length) (by omega) g2 (by omega) rfl
        refine ⟨n + n', ?_, ?_⟩
        · rw [bgSteps_add]; exact g1.trans i1
        · rw [bgSteps_add]; exact i2

end Bip324
