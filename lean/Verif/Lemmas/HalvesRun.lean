import Verif.Lemmas.Halves
import Verif.Props.AnyTransport
import Verif.Props.CancelWrite
import Verif.Props.ShapedWrite

/-!
# Both halves at once over any transport

Lemmas for C69: an execution of the halves, or of the shaped protocol, over a transport is one over the scripts of the
transport's answers.
-/

namespace Bip324

variable {P : Prims} {prof : Profile} {σ : Type} {fuel : Nat}

/-- Calls (polls) of `read`, one after the other. -/
def callMany {T Res : Type} (big : T → T × Res) : Nat → T → T × List Res
  | 0, t => (t, [])
  | n + 1, t => ((callMany big n (big t).1).1, (big t).2 :: (callMany big n (big t).1).2)

theorem callMany_succ {T Res : Type} (big : T → T × Res) (n : Nat) : ∀ t,
    callMany big (n + 1) t = ((big (callMany big n t).1).1, (callMany big n t).2 ++ [(big (callMany big n t).1).2]) := by
  induction n with
  | zero => intro t; rfl
  | succ n ih =>
    intro t
    rw [callMany, ih]
    rfl

/-! ## The reader -/

variable {H Res T : Type} {A : HalfApi σ H Res} {big : T → T × Res}

/-- A call in progress: `hm` is the half when it began and `ρ` what it was answered since. -/
def HalfApi.Refines.Mid (F : A.Refines big) (hm : H) (ρ : Source) (h : H) : Prop :=
  (∀ tail, big (F.on hm (ρ ++ tail)) = F.resume h tail) ∧ (F.Idle h → (∀ tail, F.on hm tail = F.on h tail) ∧ ρ = [])

theorem HalfApi.Refines.mid_idle (F : A.Refines big) {h : H} (hi : F.Idle h) : F.Mid h [] h :=
  ⟨fun _ => (F.idle h hi _).symm, fun _ => ⟨fun _ => rfl, rfl⟩⟩

theorem HalfApi.Refines.Mid.start {F : A.Refines big} {hm h : H} {ρ : Source} (m : F.Mid hm ρ h) : F.Mid hm ρ (A.start h) := by
  refine ⟨fun tail => by rw [m.1, F.start_resume], fun hi => ?_⟩
  obtain ⟨h1, h2⟩ := m.2 (F.start_idle h hi)
  exact ⟨fun tail => by rw [h1, F.start_on], h2⟩

theorem HalfApi.Refines.Mid.goes {F : A.Refines big} {hm h h' : H} {ρ : Source} (m : F.Mid hm ρ h) {r r' : ConnRun σ}
    (he : A.step h r = some (h', r', none)) :
    ∃ ρ1 : Source, F.Mid hm (ρ ++ ρ1) h' ∧ r'.answers = r.answers ++ ρ1 ∧ r'.sent = r.sent := by
  obtain ⟨hn, ρ1, h1, h2, h3⟩ := F.goes h r h' r' he
  exact ⟨ρ1, ⟨fun tail => by rw [List.append_assoc, m.1, h1], fun hi => absurd hi hn⟩, h2, h3⟩

theorem HalfApi.Refines.Mid.ends {F : A.Refines big} {hm h h' : H} {ρ : Source} (m : F.Mid hm ρ h) {r r' : ConnRun σ}
    {x : Res} (he : A.step h r = some (h', r', some x)) :
    ∃ ρ1 : Source, (∀ tail, big (F.on hm (ρ ++ ρ1 ++ tail)) = (F.on h' tail, x)) ∧ F.Mid h' [] h' ∧
      r'.answers = r.answers ++ ρ1 ∧ r'.sent = r.sent := by
  obtain ⟨hn, ρ1, h1, h2, h3⟩ := F.ends h r h' r' x he
  exact ⟨ρ1, fun tail => by rw [List.append_assoc, m.1, h1], F.mid_idle hn, h2, h3⟩

/-! ## The writer -/

variable {f : Flavour}

theorem steps_succ (k : Nat) : ∀ x : Writer × WProc,
    WProc.steps f P prof (k + 1) x = (WProc.steps f P prof k x).2.step f P prof (WProc.steps f P prof k x).1 := by
  induction k with
  | zero => intro x; rfl
  | succ k ih => intro x; rw [WProc.steps, ih]; rfl

theorem runCalls_snoc (cs : List WriteCall) (c : WriteCall) : ∀ w : Writer,
    w.runCalls f P prof (cs ++ [c]) =
      ((WProc.steps f P prof c.steps ((w.runCalls f P prof cs).1, .start c.payload)).1,
        (w.runCalls f P prof cs).2 ++ [(WProc.steps f P prof c.steps ((w.runCalls f P prof cs).1, .start c.payload)).2]) := by
  induction cs with
  | nil => intro w; rfl
  | cons a cs ih =>
    intro w
    simp only [List.cons_append, Writer.runCalls, ih]

theorem steps_start {w : Writer} {p : Payload} {k : Nat} :
    (∃ q, (WProc.steps f P prof k (w, .start p)).2 = .start q) ↔ k = 0 := by
  have hne : ∀ w q q', (WProc.step f P prof w (.start q)).2 ≠ .start q' := by
    intro w q q'
    simp only [WProc.step]
    split
    · split <;> simp
    · simp
  have hstay : ∀ (w : Writer) (pc : WProc), (∀ q, pc ≠ .start q) → ∀ q, (pc.step f P prof w).2 ≠ .start q := by
    intro w pc hpc q
    cases pc with
    | start q' => exact absurd rfl (hpc q')
    | sending rest =>
      cases rest with
      | nil => simp [WProc.step]
      | cons b bs =>
        simp only [WProc.step]
        split <;> (try split) <;> simp
    | flushing =>
      simp only [WProc.step]
      split <;> simp
    | done r => simp [WProc.step]
  constructor
  · rintro ⟨q, hq⟩
    cases k with
    | zero => rfl
    | succ k =>
      exfalso
      have : ∀ k q, (WProc.steps f P prof (k + 1) (w, .start p)).2 ≠ .start q := by
        intro k
        induction k with
        | zero => intro q; exact hne _ _ _
        | succ k ih => intro q; rw [steps_succ]; exact hstay _ _ ih q
      exact this k q hq
  · rintro rfl
    exact ⟨p, rfl⟩

/-! ## Both -/

/-- What the two halves have done so far, over scripts. -/
structure Halves.Done (F : A.Refines big) (f : Flavour) (P : Prims) (prof : Profile) (d0 d : Halves σ H Res) where
  ρ : Source
  ρc : Source
  ω : List WEv
  φ : List (Option ErrorKind)
  t : Bytes
  hm : H
  cs : List WriteCall
  reads : ∀ tail, callMany big d.reads.length (F.on d0.half (ρ ++ tail)) = (F.on hm tail, d.reads)
  mid : F.Mid hm ρc d.half
  payloads : cs.map (·.payload) = (d.wrote ++ d.wr.toList).map (·.1)
  writes : ∀ tω tφ o, Writer.runCalls f P prof ⟨d0.out, ⟨ω ++ tω, φ ++ tφ, o⟩⟩ cs =
    (⟨d.out, ⟨tω, tφ, o ++ t⟩⟩, (d.wrote ++ d.wr.toList).map (·.2))
  answers : d.run.answers = d0.run.answers ++ (ρ ++ ρc)
  sent : d.run.sent = d0.run.sent ++ t

theorem Halves.step_writing {N : Conn σ} {d : Halves σ H Res} {p : Payload} {pc : WProc} (hw : d.wr = some (p, pc))
    (hd : ∀ x, pc ≠ .done x) : d.step A f N P prof .writing =
      match N.ask pc.asks d.run with
      | none => d
      | some (r, sink) => { d with out := (pc.step f P prof ⟨d.out, sink⟩).1.cipher,
                                   wr := some (p, (pc.step f P prof ⟨d.out, sink⟩).2), run := r } := by
  simp only [Halves.step, hw]
  cases pc with
  | done x => exact absurd rfl (hd x)
  | start q => rfl
  | sending l => rfl
  | flushing => rfl

/-- A step of the halves over a transport. -/
theorem Halves.Done.step {F : A.Refines big} {N : Conn σ} {d0 d : Halves σ H Res} (D : Nonempty (Halves.Done F f P prof d0 d))
    (l : HalvesLabel σ) : Nonempty (Halves.Done F f P prof d0 (d.step A f N P prof l)) := by
  obtain ⟨D⟩ := D
  cases l with
  | read => exact ⟨{ D with mid := D.mid.start }⟩
  | peer s => exact ⟨{ D with }⟩
  | reading =>
    simp only [Halves.step]
    cases hs : A.step d.half d.run with
    | none => exact ⟨D⟩
    | some y =>
    obtain ⟨h, r, y⟩ := y
    cases y with
    | none =>
      obtain ⟨ρ1, m, h1, h2⟩ := D.mid.goes hs
      exact ⟨{ D with
        ρc := D.ρc ++ ρ1
        mid := m
        answers := by simp only [h1, D.answers, List.append_assoc]
        sent := by simp only [h2, D.sent] }⟩
    | some x =>
      obtain ⟨ρ1, e, m, h1, h2⟩ := D.mid.ends hs
      exact ⟨{ D with
        ρ := D.ρ ++ D.ρc ++ ρ1
        ρc := []
        hm := h
        reads := fun tail => by
          have hr := D.reads (D.ρc ++ ρ1 ++ tail)
          simp only [List.length_append, List.length_singleton]
          rw [callMany_succ]
          simp only [List.append_assoc] at hr e ⊢
          simp only [hr, e]
        mid := m
        answers := by simp only [h1, D.answers, List.append_assoc, List.append_nil]
        sent := by simp only [h2, D.sent] }⟩
  | write p =>
    simp only [Halves.step]
    cases hw : d.wr with
    | some y => exact ⟨D⟩
    | none =>
      have hp := D.payloads
      have hwr := D.writes
      rw [hw] at hp hwr
      exact ⟨{ D with
        cs := D.cs ++ [⟨p, 0⟩]
        payloads := by simpa using hp
        writes := fun tω tφ o => by
          rw [runCalls_snoc, hwr]
          simp [WProc.steps] }⟩
  | cancel =>
    cases f with
    | sync => exact ⟨{ D with }⟩
    | async =>
      cases hw : d.wr with
      | none =>
        simp only [Halves.step, hw]
        exact ⟨D⟩
      | some y =>
        simp only [Halves.step, hw]
        have hp := D.payloads
        have hwr := D.writes
        rw [hw] at hp hwr
        exact ⟨{ D with
          payloads := by simpa using hp
          writes := fun tω tφ o => by simpa using hwr tω tφ o }⟩
  | writing =>
    cases hw : d.wr with
    | none =>
      simp only [Halves.step, hw]
      exact ⟨D⟩
    | some y =>
    obtain ⟨p, pc⟩ := y
    have hp := D.payloads
    have hwr := D.writes
    rw [hw] at hp hwr
    by_cases hd : ∃ x, pc = .done x
    · obtain ⟨x, rfl⟩ := hd
      simp only [Halves.step, hw]
      exact ⟨{ D with
        payloads := by simpa using hp
        writes := fun tω tφ o => by simpa using hwr tω tφ o }⟩
    · show Nonempty (Halves.Done F f P prof d0 (d.step A f N P prof .writing))
      rw [Halves.step_writing hw (fun x hx => hd ⟨x, hx⟩)]
      cases ha : N.ask pc.asks d.run with
      | none => exact ⟨D⟩
      | some y =>
      obtain ⟨r, k⟩ := y
      obtain ⟨t, h1, h2, h3⟩ := WProc.step_asked (P := P) (prof := prof) f d.out ha
      -- the last call
      have hlast : ∃ cs0 n, D.cs = cs0 ++ [⟨p, n⟩] ∧ cs0.map (·.payload) = d.wrote.map (·.1) := by
        have hp' : D.cs.map (·.payload) = d.wrote.map (·.1) ++ [p] := by simpa using hp
        obtain ⟨cs0, l2, e1, e2, e3⟩ := List.map_eq_append_iff.1 hp'
        cases l2 with
        | nil => simp at e3
        | cons c l2 =>
          obtain ⟨pp, n⟩ := c
          simp only [List.map_cons, List.cons.injEq, List.map_eq_nil_iff] at e3
          obtain ⟨rfl, rfl⟩ := e3
          exact ⟨cs0, n, e1, e2⟩
      obtain ⟨cs0, n, hcs, hpay⟩ := hlast
      refine ⟨{ D with
        ω := D.ω ++ k.script
        φ := D.φ ++ k.flushes
        t := D.t ++ t
        cs := cs0 ++ [⟨p, n + 1⟩]
        payloads := by simp [hpay]
        writes := fun tω tφ o => ?_
        answers := by simp only [h3, D.answers]
        sent := by simp only [h2, D.sent, List.append_assoc] }⟩
      have hb := hwr (k.script ++ tω) (k.flushes ++ tφ) o
      rw [hcs, runCalls_snoc] at hb
      rw [runCalls_snoc]
      simp only [steps_succ]
      simp only [Option.toList_some, List.map_append, List.map_cons, List.map_nil, Prod.mk.injEq] at hb
      obtain ⟨b1, b2⟩ := hb
      obtain ⟨b2, b3⟩ := List.append_inj' b2 rfl
      simp only [List.cons.injEq, and_true] at b3
      simp only [List.append_assoc] at b1 b2 b3 ⊢
      simp only [b1, b2, b3, h1, Option.toList_some, List.map_append, List.map_cons, List.map_nil, List.append_assoc]

theorem Halves.Done.runs {F : A.Refines big} {N : Conn σ} {d0 : Halves σ H Res} (ls : List (HalvesLabel σ)) :
    ∀ {d : Halves σ H Res}, Nonempty (Halves.Done F f P prof d0 d) →
      Nonempty (Halves.Done F f P prof d0 (d.runs A f N P prof ls)) := by
  induction ls with
  | nil => intro d D; exact D
  | cons l ls ih => intro d D; exact ih (Halves.Done.step D l)

/-- At the beginning. -/
theorem Halves.Done.init {F : A.Refines big} {h : H} (hi : F.Idle h) {o : OutboundCipher} {r : ConnRun σ} :
    Nonempty (Halves.Done F f P prof ⟨h, o, none, r, [], []⟩ ⟨h, o, none, r, [], []⟩) :=
  ⟨{ ρ := [], ρc := [], ω := [], φ := [], t := [], hm := h, cs := [], reads := fun _ => rfl, mid := F.mid_idle hi,
     payloads := rfl, writes := fun _ _ _ => by simp [Writer.runCalls], answers := by simp, sent := by simp }⟩

/-! ## The shaped protocol -/

variable {R : Rng}

/-- The same system with another reader and over other scripts. -/
def ShapedSys.over (s : ShapedSys R) (rd : ShapedReader) (xs : List (Outcome ProtocolError Payload)) (k : Sink) : ShapedSys R :=
  { s with ws := s.ws.over k, reader := rd, reads := xs }

/-- The same system with another reader and over other scripts. -/
def AsyncShapedSys.over (s : AsyncShapedSys R) (rd : AsyncShapedReader) (xs : List PollResult) (k : Sink) : AsyncShapedSys R :=
  { s with ws := s.ws.over k, reader := rd, reads := xs }

/-- The transport takes what is written: every write takes at least a byte (with `retry` it may also be interrupted), and no
flush fails.  It may still not answer for as long as it likes. -/
def Conn.Takes (retry : Bool) (N : Conn σ) : Prop :=
  (∀ s b s' x, b ≠ [] → N.write s b = some (s', x) → (∃ n, x = .ok (n + 1)) ∨ (retry = true ∧ x = .error .interrupted)) ∧
    ∀ s s' x, N.flush s = some (s', x) → x = .ok ()

theorem WProc.asks_ne {pc : WProc} {b : Bytes} (h : pc.asks = some (.write b)) : b ≠ [] := by
  cases pc with
  | sending l =>
    cases l with
    | nil => simp [WProc.asks] at h
    | cons a l =>
      simp only [WProc.asks, Option.some.injEq, NetReq.write.injEq] at h
      subst h
      simp
  | _ => simp [WProc.asks] at h

theorem JobPc.asks_ne {pc : JobPc} {b : Bytes} (h : pc.asks = some (.write b)) : b ≠ [] := by
  cases pc with
  | padding w p => exact WProc.asks_ne h
  | payload w => exact WProc.asks_ne h
  | cover w => exact WProc.asks_ne h
  | _ => simp [JobPc.asks] at h

theorem ShapedSys.asks_ne {s : ShapedSys R} {l : SysLabel} {b : Bytes} (h : s.asks l = some (.write b)) : b ≠ [] := by
  cases l with
  | app =>
    simp only [ShapedSys.asks] at h
    split at h
    · exact JobPc.asks_ne h
    · simp at h
  | bg =>
    simp only [ShapedSys.asks] at h
    split at h
    · exact JobPc.asks_ne h
    · simp at h
  | _ => simp [ShapedSys.asks] at h

theorem AsyncShapedSys.asks_ne {s : AsyncShapedSys R} {l : AsyncLabel} {b : Bytes} (h : s.asks l = some (.write b)) : b ≠ [] := by
  cases l with
  | task =>
    simp only [AsyncShapedSys.asks] at h
    split at h
    · exact JobPc.asks_ne h
    · exact JobPc.asks_ne h
    · simp at h
  | _ => simp [AsyncShapedSys.asks] at h

/-- What such a transport answers. -/
theorem ask_takes {N : Conn σ} {retry : Bool} (hN : N.Takes retry) {q : Option NetReq} (hq : ∀ b, q = some (.write b) → b ≠ [])
    {r r' : ConnRun σ} {k : Sink} (h : N.ask q r = some (r', k)) : k.Reliable retry := by
  cases q with
  | none =>
    simp only [Conn.ask, Option.some.injEq, Prod.mk.injEq] at h
    obtain ⟨-, rfl⟩ := h
    exact ⟨by simp, by simp⟩
  | some q =>
  cases q with
  | write b =>
    simp only [Conn.ask, Conn.writeRun] at h
    cases hw : N.write r.net b with
    | none => rw [hw] at h; simp at h
    | some y =>
    obtain ⟨s', x⟩ := y
    rw [hw] at h
    rcases hN.1 _ _ _ _ (hq b rfl) hw with ⟨n, rfl⟩ | ⟨hr, rfl⟩
    · simp only [Option.some.injEq, Prod.mk.injEq] at h
      obtain ⟨-, rfl⟩ := h
      exact ⟨by simp, by simp⟩
    · simp only [Option.some.injEq, Prod.mk.injEq] at h
      obtain ⟨-, rfl⟩ := h
      exact ⟨by simp [hr], by simp⟩
  | flush =>
    simp only [Conn.ask, Conn.flushRun] at h
    cases hw : N.flush r.net with
    | none => rw [hw] at h; simp at h
    | some y =>
    obtain ⟨s', x⟩ := y
    obtain rfl := hN.2 _ _ _ hw
    rw [hw] at h
    simp only [Option.some.injEq, Prod.mk.injEq] at h
    obtain ⟨-, rfl⟩ := h
    exact ⟨by simp, by simp⟩

theorem ask_none {N : Conn σ} {r r' : ConnRun σ} {k : Sink} (h : N.ask none r = some (r', k)) : r' = r ∧ k = ⟨[], [], []⟩ := by
  simp only [Conn.ask, Option.some.injEq, Prod.mk.injEq] at h
  exact ⟨h.1.symm, h.2.symm⟩

/-- A step of a thread with the transport's answer. -/
theorem ShapedSys.step_asked {N : Conn σ} (s : ShapedSys R) {l : SysLabel} (hl : l ≠ .read) {r r' : ConnRun σ} {k : Sink}
    (h : N.ask (s.asks l) r = some (r', k)) :
    ∃ t, (∀ rd xs tω tφ o, (s.over rd xs ⟨k.script ++ tω, k.flushes ++ tφ, o⟩).step P prof l =
        (({ s with ws := s.ws.over k } : ShapedSys R).step P prof l).over rd xs ⟨tω, tφ, o ++ t⟩) ∧
      r'.sent = r.sent ++ t ∧ r'.answers = r.answers ∧
      (({ s with ws := s.ws.over k } : ShapedSys R).step P prof l).reader = s.reader ∧
      (({ s with ws := s.ws.over k } : ShapedSys R).step P prof l).reads = s.reads := by
  obtain ⟨ws, owner, poisoned, shutdown, app, bg, reader, called, returned, reads0⟩ := s
  cases l with
  | read => exact absurd rfl hl
  | call p =>
    obtain ⟨rfl, rfl⟩ := ask_none h
    refine ⟨[], ?_, by simp, rfl, ?_⟩
    · intro rd xs tω tφ o
      rw [List.append_nil]
      cases app <;> rfl
    · cases app <;> exact ⟨rfl, rfl⟩
  | drop =>
    obtain ⟨rfl, rfl⟩ := ask_none h
    refine ⟨[], ?_, by simp, rfl, ?_⟩
    · intro rd xs tω tφ o
      rw [List.append_nil]
      cases app <;> rfl
    · cases app <;> exact ⟨rfl, rfl⟩
  | app =>
    cases app with
    | idle =>
      obtain ⟨rfl, rfl⟩ := ask_none h
      exact ⟨[], fun rd xs tω tφ o => by rw [List.append_nil]; rfl, by simp, rfl, rfl, rfl⟩
    | gone =>
      obtain ⟨rfl, rfl⟩ := ask_none h
      exact ⟨[], fun rd xs tω tφ o => by rw [List.append_nil]; rfl, by simp, rfl, rfl, rfl⟩
    | joining =>
      obtain ⟨rfl, rfl⟩ := ask_none h
      refine ⟨[], fun rd xs tω tφ o => by rw [List.append_nil]; cases bg <;> rfl, by simp, rfl, ?_⟩
      cases bg <;> exact ⟨rfl, rfl⟩
    | locking p =>
      obtain ⟨rfl, rfl⟩ := ask_none h
      cases owner with
      | some t => exact ⟨[], fun rd xs tω tφ o => by rw [List.append_nil]; rfl, by simp, rfl, rfl, rfl⟩
      | none =>
        cases poisoned <;> exact ⟨[], fun rd xs tω tφ o => by rw [List.append_nil]; rfl, by simp, rfl, rfl, rfl⟩
    | writing p pc =>
      by_cases hd : ∃ x, pc = .done x
      · obtain ⟨x, rfl⟩ := hd
        obtain ⟨rfl, rfl⟩ := ask_none h
        exact ⟨[], fun rd xs tω tφ o => by rw [List.append_nil]; rfl, by simp, rfl, rfl, rfl⟩
      · obtain ⟨t, h1, h2, h3⟩ := JobPc.step_asked (P := P) (prof := prof) .sync ws (pc := pc) h
        have hs : ∀ s : ShapedSys R, s.app = .writing p pc → s.step P prof .app =
            { s with ws := (pc.step .sync P prof s.ws).1, app := .writing p (pc.step .sync P prof s.ws).2 } := by
          intro s hsa
          simp only [ShapedSys.step, ShapedSys.appStep, hsa]
          cases pc with
          | done x => exact absurd ⟨x, rfl⟩ hd
          | start j => rfl
          | padding w p => rfl
          | payload w => rfl
          | cover w => rfl
        refine ⟨t, fun rd xs tω tφ o => ?_, h2, h3, ?_⟩
        · rw [hs _ rfl, hs _ rfl]
          simp only [ShapedSys.over, h1]
        · rw [hs _ rfl]
          exact ⟨rfl, rfl⟩
  | bg =>
    cases bg with
    | checking =>
      obtain ⟨rfl, rfl⟩ := ask_none h
      cases shutdown <;> exact ⟨[], fun rd xs tω tφ o => by rw [List.append_nil]; rfl, by simp, rfl, rfl, rfl⟩
    | sleeping =>
      obtain ⟨rfl, rfl⟩ := ask_none h
      exact ⟨[], fun rd xs tω tφ o => by rw [List.append_nil]; rfl, by simp, rfl, rfl, rfl⟩
    | finished =>
      obtain ⟨rfl, rfl⟩ := ask_none h
      exact ⟨[], fun rd xs tω tφ o => by rw [List.append_nil]; rfl, by simp, rfl, rfl, rfl⟩
    | panicked =>
      obtain ⟨rfl, rfl⟩ := ask_none h
      exact ⟨[], fun rd xs tω tφ o => by rw [List.append_nil]; rfl, by simp, rfl, rfl, rfl⟩
    | trying =>
      obtain ⟨rfl, rfl⟩ := ask_none h
      cases owner with
      | some t => exact ⟨[], fun rd xs tω tφ o => by rw [List.append_nil]; rfl, by simp, rfl, rfl, rfl⟩
      | none =>
        cases poisoned <;> exact ⟨[], fun rd xs tω tφ o => by rw [List.append_nil]; rfl, by simp, rfl, rfl, rfl⟩
    | covering pc =>
      by_cases hd : ∃ x, pc = .done x
      · obtain ⟨x, rfl⟩ := hd
        obtain ⟨rfl, rfl⟩ := ask_none h
        exact ⟨[], fun rd xs tω tφ o => by rw [List.append_nil]; rfl, by simp, rfl, rfl, rfl⟩
      · obtain ⟨t, h1, h2, h3⟩ := JobPc.step_asked (P := P) (prof := prof) .sync ws (pc := pc) h
        have hs : ∀ s : ShapedSys R, s.bg = .covering pc → s.step P prof .bg =
            { s with ws := (pc.step .sync P prof s.ws).1, bg := .covering (pc.step .sync P prof s.ws).2 } := by
          intro s hsa
          simp only [ShapedSys.step, ShapedSys.bgStep, hsa]
          cases pc with
          | done x => exact absurd ⟨x, rfl⟩ hd
          | start j => rfl
          | padding w p => rfl
          | payload w => rfl
          | cover w => rfl
        refine ⟨t, fun rd xs tω tφ o => ?_, h2, h3, ?_⟩
        · rw [hs _ rfl, hs _ rfl]
          simp only [ShapedSys.over, h1]
        · rw [hs _ rfl]
          exact ⟨rfl, rfl⟩

theorem shapedRead_record (rd : SyncReader) (rec : List Nat) : ShapedReader.read P prof ⟨rd, rec⟩ =
    (⟨(rd.read P prof).1, (recordRead rec (rd.read P prof).2).1⟩, (recordRead rec (rd.read P prof).2).2) := by
  unfold ShapedReader.read
  simp only
  cases rd.read P prof with
  | mk rd' x =>
  cases x with
  | ok p =>
    simp only [recordRead]
    cases p.contents <;> rfl
  | err e => rfl
  | panic => rfl

theorem shapedPoll_record (rd : AsyncReader) (rec : List Nat) : AsyncShapedReader.poll P prof ⟨rd, rec⟩ =
    (⟨(rd.poll P prof).1, (recordPoll rec (rd.poll P prof).2).1⟩, (recordPoll rec (rd.poll P prof).2).2) := by
  unfold AsyncShapedReader.poll
  simp only
  cases rd.poll P prof with
  | mk rd' x =>
  cases x with
  | pending => rfl
  | ready x =>
    cases x with
    | ok p =>
      simp only [recordPoll, recordRead]
      cases p.contents <;> rfl
    | err e => rfl
    | panic => rfl

theorem ShapedSys.run_snoc (s : ShapedSys R) (ls : List SysLabel) (l : SysLabel) :
    s.run P prof (ls ++ [l]) = (s.run P prof ls).step P prof l := by
  simp only [ShapedSys.run, List.foldl_append, List.foldl_cons, List.foldl_nil]

/-- What the shaped system has done so far, over scripts. -/
structure ShapedN.Done {N : Conn σ} (hN : N.Keeps) (P : Prims) (prof : Profile) (s0 s : ShapedN σ R)
    (ls : List (ShapedLabel σ SysLabel)) where
  ρ : Source
  ρc : Source
  ω : List WEv
  φ : List (Option ErrorKind)
  t : Bytes
  hm : SyncHalf
  ls' : List SysLabel
  sim : ∀ tρ tω tφ o, (s0.sys.over ⟨s0.half.on (ρ ++ tρ), s0.sys.reader.recorded⟩ s0.sys.reads ⟨ω ++ tω, φ ++ tφ, o⟩).run P prof ls' =
    s.sys.over ⟨hm.on tρ, s.sys.reader.recorded⟩ s.sys.reads ⟨tω, tφ, o ++ t⟩
  mid : (syncRefines (P := P) (prof := prof) hN).Mid hm ρc s.half
  labels : ls'.length ≤ ls.length ∧ ∀ l ∈ ls', l ≠ .read → .sys l ∈ ls
  answers : s.run.answers = s0.run.answers ++ (ρ ++ ρc)
  sent : s.run.sent = s0.run.sent ++ t
  took : N.Takes true → Sink.Reliable true ⟨ω, φ, []⟩
  reads : ∃ xs, s.sys.reads = s0.sys.reads ++ xs ∧ xs.length ≤ ls'.length ∧
    ∀ tail, callMany (SyncReader.read P prof) xs.length (s0.half.on (ρ ++ tail)) = (hm.on tail, xs)

theorem ShapedN.Done.more {N : Conn σ} {hN : N.Keeps} {s0 s : ShapedN σ R} {ls : List (ShapedLabel σ SysLabel)}
    (D : ShapedN.Done hN P prof s0 s ls) (l : ShapedLabel σ SysLabel) : Nonempty (ShapedN.Done hN P prof s0 s (ls ++ [l])) := by
  have h1 := D.labels.1
  exact ⟨{ D with labels := ⟨by rw [List.length_append]; omega, fun x hx hr => by simp [D.labels.2 x hx hr]⟩ }⟩

theorem ShapedN.Done.step {N : Conn σ} {hN : N.Keeps} {s0 s : ShapedN σ R} {ls : List (ShapedLabel σ SysLabel)}
    (D : Nonempty (ShapedN.Done hN P prof s0 s ls)) (l : ShapedLabel σ SysLabel) :
    Nonempty (ShapedN.Done hN P prof s0 (s.step N P prof l) (ls ++ [l])) := by
  obtain ⟨D⟩ := D
  obtain ⟨D1⟩ := D.more l
  cases l with
  | peer x => exact ⟨{ D1 with }⟩
  | reading =>
    simp only [ShapedN.step]
    cases hs : s.half.step N P prof s.run with
    | none => exact ⟨D1⟩
    | some y =>
    obtain ⟨h, r, y⟩ := y
    cases y with
    | none =>
      obtain ⟨ρ1, m, h1, h2⟩ := D1.mid.goes hs
      exact ⟨{ D1 with
        ρc := D1.ρc ++ ρ1
        mid := m
        answers := by simp only [h1, D1.answers, List.append_assoc]
        sent := by simp only [h2, D1.sent] }⟩
    | some x =>
      obtain ⟨ρ1, e, m, h1, h2⟩ := D.mid.ends hs
      refine ⟨{ D with
        ρ := D.ρ ++ D.ρc ++ ρ1
        ρc := []
        hm := h
        ls' := D.ls' ++ [.read]
        sim := fun tρ tω tφ o => ?_
        labels := ⟨by have := D.labels.1; simp only [List.length_append, List.length_singleton]; omega, fun x hx hr => ?_⟩
        mid := m
        answers := by simp only [h1, D.answers, List.append_assoc, List.append_nil]
        sent := by simp only [h2, D.sent]
        reads := ?_ }⟩
      · have hsim := D.sim (D.ρc ++ ρ1 ++ tρ) tω tφ o
        have e : (D.hm.on (D.ρc ++ ρ1 ++ tρ)).read P prof = (h.on tρ, x) := e tρ
        simp only [List.append_assoc] at hsim e ⊢
        rw [ShapedSys.run_snoc, hsim]
        simp only [ShapedSys.step, ShapedSys.over, shapedRead_record, e]
      · rcases List.mem_append.1 hx with hx | hx
        · simp [D.labels.2 x hx hr]
        · simp only [List.mem_singleton] at hx
          exact absurd hx hr
      · obtain ⟨xs, e1, e3, e2⟩ := D.reads
        have e : ∀ tail, (D.hm.on (D.ρc ++ ρ1 ++ tail)).read P prof = (h.on tail, x) := e
        have hx : (recordRead s.sys.reader.recorded x).2 = x := by
          have := C42_shaped_read (P := P) (prof := prof) ⟨D.hm.on (D.ρc ++ ρ1 ++ []), s.sys.reader.recorded⟩
          rw [shapedRead_record, e] at this
          exact this.2
        refine ⟨xs ++ [x], by simp only [e1, hx, List.append_assoc], by simp [e3], fun tail => ?_⟩
        have hr := e2 (D.ρc ++ ρ1 ++ tail)
        have e := e tail
        simp only [List.length_append, List.length_singleton]
        rw [callMany_succ]
        simp only [List.append_assoc] at hr e ⊢
        simp only [hr, e]
  | sys l =>
    by_cases hl : l = .read
    · subst hl
      exact ⟨{ D1 with mid := D1.mid.start }⟩
    · have hstep : s.step N P prof (.sys l) = match N.ask (s.sys.asks l) s.run with
          | none => s
          | some (r, sink) => { s with sys := ({ s.sys with ws := s.sys.ws.over sink } : ShapedSys R).step P prof l, run := r } := by
        cases l with
        | read => exact absurd rfl hl
        | call p => rfl
        | drop => rfl
        | app => rfl
        | bg => rfl
      rw [hstep]
      cases ha : N.ask (s.sys.asks l) s.run with
      | none => exact ⟨D1⟩
      | some y =>
      obtain ⟨r, k⟩ := y
      obtain ⟨t, h1, h2, h3, h4, h5⟩ := ShapedSys.step_asked (P := P) (prof := prof) s.sys hl ha
      refine ⟨{ D with
        ω := D.ω ++ k.script
        φ := D.φ ++ k.flushes
        t := D.t ++ t
        ls' := D.ls' ++ [l]
        sim := fun tρ tω tφ o => ?_
        labels := ⟨by have := D.labels.1; simp only [List.length_append, List.length_singleton]; omega, fun x hx hr => ?_⟩
        answers := by simp only [h3, D.answers]
        sent := by simp only [h2, D.sent, List.append_assoc]
        took := fun hT => ⟨fun e he => (List.mem_append.1 he).elim ((D.took hT).1 e)
            ((ask_takes hT (fun b hb => ShapedSys.asks_ne hb) ha).1 e),
          fun e he => (List.mem_append.1 he).elim ((D.took hT).2 e)
            ((ask_takes hT (fun b hb => ShapedSys.asks_ne hb) ha).2 e)⟩
        reads := by
          obtain ⟨xs, e1, e3, e2⟩ := D.reads
          exact ⟨xs, by rw [h5]; exact e1, by rw [List.length_append]; omega, e2⟩ }⟩
      · have hsim := D.sim tρ (k.script ++ tω) (k.flushes ++ tφ) o
        simp only [List.append_assoc] at hsim ⊢
        rw [ShapedSys.run_snoc, hsim]
        simp only [h1, h4, h5, List.append_assoc]
      · rcases List.mem_append.1 hx with hx | hx
        · simp [D.labels.2 x hx hr]
        · simp only [List.mem_singleton] at hx
          subst hx
          simp

theorem ShapedN.Done.runs {N : Conn σ} {hN : N.Keeps} {s0 : ShapedN σ R} (ls : List (ShapedLabel σ SysLabel)) :
    ∀ {s : ShapedN σ R} {ls0 : List (ShapedLabel σ SysLabel)}, Nonempty (ShapedN.Done hN P prof s0 s ls0) →
      Nonempty (ShapedN.Done hN P prof s0 (s.runs N P prof ls) (ls0 ++ ls)) := by
  induction ls with
  | nil => intro s ls0 D; simpa [ShapedN.runs] using D
  | cons l ls ih =>
    intro s ls0 D
    have := ih (ShapedN.Done.step D l)
    simpa [ShapedN.runs] using this

theorem ShapedN.Done.init {N : Conn σ} {hN : N.Keeps} {s0 : ShapedN σ R} (hi : s0.half.pc = .idle) :
    Nonempty (ShapedN.Done hN P prof s0 s0 []) :=
  ⟨{ ρ := [], ρc := [], ω := [], φ := [], t := [], hm := s0.half, ls' := [], sim := fun _ _ _ _ => by simp [ShapedSys.run],
     mid := (syncRefines hN).mid_idle hi, labels := by simp, answers := by simp, sent := by simp,
     took := fun _ => ⟨by simp, by simp⟩, reads := ⟨[], by simp, by simp, fun _ => rfl⟩ }⟩

/-- A step of the task or of the caller with the transport's answer. -/
theorem AsyncShapedSys.step_asked {N : Conn σ} (s : AsyncShapedSys R) {l : AsyncLabel} (hl : l ≠ .read) {r r' : ConnRun σ} {k : Sink}
    (h : N.ask (s.asks l) r = some (r', k)) :
    ∃ t, (∀ rd xs tω tφ o, (s.over rd xs ⟨k.script ++ tω, k.flushes ++ tφ, o⟩).step P prof l =
        (({ s with ws := s.ws.over k } : AsyncShapedSys R).step P prof l).over rd xs ⟨tω, tφ, o ++ t⟩) ∧
      r'.sent = r.sent ++ t ∧ r'.answers = r.answers ∧
      (({ s with ws := s.ws.over k } : AsyncShapedSys R).step P prof l).reader = s.reader ∧
      (({ s with ws := s.ws.over k } : AsyncShapedSys R).step P prof l).reads = s.reads := by
  obtain ⟨ws, queue, closed, answers, task, caller, reader, called, returned, reads0⟩ := s
  cases l with
  | read => exact absurd rfl hl
  | call p =>
    obtain ⟨rfl, rfl⟩ := ask_none h
    cases caller with
    | idle =>
      cases hd : task.ended <;>
        exact ⟨[], fun rd xs tω tφ o => by rw [List.append_nil]; simp [AsyncShapedSys.step, AsyncShapedSys.over, hd, WriterState.over],
          by simp, rfl, by simp [AsyncShapedSys.step, hd], by simp [AsyncShapedSys.step, hd]⟩
    | waiting p rx => exact ⟨[], fun rd xs tω tφ o => by rw [List.append_nil]; rfl, by simp, rfl, rfl, rfl⟩
    | gone => exact ⟨[], fun rd xs tω tφ o => by rw [List.append_nil]; rfl, by simp, rfl, rfl, rfl⟩
  | resume =>
    obtain ⟨rfl, rfl⟩ := ask_none h
    cases caller with
    | idle => exact ⟨[], fun rd xs tω tφ o => by rw [List.append_nil]; rfl, by simp, rfl, rfl, rfl⟩
    | gone => exact ⟨[], fun rd xs tω tφ o => by rw [List.append_nil]; rfl, by simp, rfl, rfl, rfl⟩
    | waiting p rx =>
      cases hk : answers.lookup rx with
      | some x =>
        exact ⟨[], fun rd xs tω tφ o => by rw [List.append_nil]; simp [AsyncShapedSys.step, AsyncShapedSys.over, hk, WriterState.over],
          by simp, rfl, by simp [AsyncShapedSys.step, hk], by simp [AsyncShapedSys.step, hk]⟩
      | none =>
        cases hd : task.ended <;>
          exact ⟨[], fun rd xs tω tφ o => by
              rw [List.append_nil]; simp [AsyncShapedSys.step, AsyncShapedSys.over, hk, hd, WriterState.over],
            by simp, rfl, by simp [AsyncShapedSys.step, hk, hd], by simp [AsyncShapedSys.step, hk, hd]⟩
  | cancel =>
    obtain ⟨rfl, rfl⟩ := ask_none h
    cases caller <;> exact ⟨[], fun rd xs tω tφ o => by rw [List.append_nil]; rfl, by simp, rfl, rfl, rfl⟩
  | drop =>
    obtain ⟨rfl, rfl⟩ := ask_none h
    cases caller <;> exact ⟨[], fun rd xs tω tφ o => by rw [List.append_nil]; rfl, by simp, rfl, rfl, rfl⟩
  | recv =>
    obtain ⟨rfl, rfl⟩ := ask_none h
    cases task with
    | select a b =>
      cases a with
      | true => exact ⟨[], fun rd xs tω tφ o => by rw [List.append_nil]; rfl, by simp, rfl, rfl, rfl⟩
      | false =>
        cases queue with
        | cons c q => exact ⟨[], fun rd xs tω tφ o => by rw [List.append_nil]; rfl, by simp, rfl, rfl, rfl⟩
        | nil => cases closed <;> exact ⟨[], fun rd xs tω tφ o => by rw [List.append_nil]; rfl, by simp, rfl, rfl, rfl⟩
    | _ => exact ⟨[], fun rd xs tω tφ o => by rw [List.append_nil]; rfl, by simp, rfl, rfl, rfl⟩
  | tick =>
    obtain ⟨rfl, rfl⟩ := ask_none h
    cases task with
    | select a b => cases b <;> exact ⟨[], fun rd xs tω tφ o => by rw [List.append_nil]; rfl, by simp, rfl, rfl, rfl⟩
    | _ => exact ⟨[], fun rd xs tω tφ o => by rw [List.append_nil]; rfl, by simp, rfl, rfl, rfl⟩
  | otherwise =>
    obtain ⟨rfl, rfl⟩ := ask_none h
    cases task with
    | select a b => cases a <;> cases b <;> exact ⟨[], fun rd xs tω tφ o => by rw [List.append_nil]; rfl, by simp, rfl, rfl, rfl⟩
    | _ => exact ⟨[], fun rd xs tω tφ o => by rw [List.append_nil]; rfl, by simp, rfl, rfl, rfl⟩
  | task =>
    cases task with
    | writing c pc =>
      by_cases hd : ∃ x, pc = .done x
      · obtain ⟨x, rfl⟩ := hd
        obtain ⟨rfl, rfl⟩ := ask_none h
        cases x <;> exact ⟨[], fun rd xs tω tφ o => by rw [List.append_nil]; rfl, by simp, rfl, rfl, rfl⟩
      · obtain ⟨t, h1, h2, h3⟩ := JobPc.step_asked (P := P) (prof := prof) .async ws (pc := pc) h
        have hs : ∀ s : AsyncShapedSys R, s.task = .writing c pc → s.step P prof .task =
            { s with ws := (pc.step .async P prof s.ws).1, task := .writing c (pc.step .async P prof s.ws).2 } := by
          intro s hsa
          simp only [AsyncShapedSys.step, AsyncShapedSys.taskStep, hsa]
          cases pc with
          | done x => exact absurd ⟨x, rfl⟩ hd
          | start j => rfl
          | padding w p => rfl
          | payload w => rfl
          | cover w => rfl
        refine ⟨t, fun rd xs tω tφ o => ?_, h2, h3, ?_⟩
        · rw [hs _ rfl, hs _ rfl]
          simp only [AsyncShapedSys.over, h1]
        · rw [hs _ rfl]
          exact ⟨rfl, rfl⟩
    | covering pc =>
      by_cases hd : ∃ x, pc = .done x
      · obtain ⟨x, rfl⟩ := hd
        obtain ⟨rfl, rfl⟩ := ask_none h
        cases x <;> exact ⟨[], fun rd xs tω tφ o => by rw [List.append_nil]; rfl, by simp, rfl, rfl, rfl⟩
      · obtain ⟨t, h1, h2, h3⟩ := JobPc.step_asked (P := P) (prof := prof) .async ws (pc := pc) h
        have hs : ∀ s : AsyncShapedSys R, s.task = .covering pc → s.step P prof .task =
            { s with ws := (pc.step .async P prof s.ws).1, task := .covering (pc.step .async P prof s.ws).2 } := by
          intro s hsa
          simp only [AsyncShapedSys.step, AsyncShapedSys.taskStep, hsa]
          cases pc with
          | done x => exact absurd ⟨x, rfl⟩ hd
          | start j => rfl
          | padding w p => rfl
          | payload w => rfl
          | cover w => rfl
        refine ⟨t, fun rd xs tω tφ o => ?_, h2, h3, ?_⟩
        · rw [hs _ rfl, hs _ rfl]
          simp only [AsyncShapedSys.over, h1]
        · rw [hs _ rfl]
          exact ⟨rfl, rfl⟩
    | _ =>
      obtain ⟨rfl, rfl⟩ := ask_none h
      exact ⟨[], fun rd xs tω tφ o => by rw [List.append_nil]; rfl, by simp, rfl, rfl, rfl⟩

theorem AsyncShapedSys.run_snoc (s : AsyncShapedSys R) (ls : List AsyncLabel) (l : AsyncLabel) :
    s.run P prof (ls ++ [l]) = (s.run P prof ls).step P prof l := by
  simp only [AsyncShapedSys.run, List.foldl_append, List.foldl_cons, List.foldl_nil]

/-- What the shaped system has done so far, over scripts. -/
structure AsyncShapedN.Done {N : PollConn σ} (hN : N.Keeps) (P : Prims) (prof : Profile) (s0 s : AsyncShapedN σ R)
    (ls : List (ShapedLabel σ AsyncLabel)) where
  ρ : Source
  ρc : Source
  ω : List WEv
  φ : List (Option ErrorKind)
  t : Bytes
  hm : AsyncHalf
  ls' : List AsyncLabel
  sim : ∀ tρ tω tφ o, (s0.sys.over ⟨s0.half.on (ρ ++ tρ), s0.sys.reader.recorded⟩ s0.sys.reads ⟨ω ++ tω, φ ++ tφ, o⟩).run P prof ls' =
    s.sys.over ⟨hm.on tρ, s.sys.reader.recorded⟩ s.sys.reads ⟨tω, tφ, o ++ t⟩
  mid : (asyncRefines (P := P) (prof := prof) hN).Mid hm ρc s.half
  labels : ls'.length ≤ ls.length ∧ ∀ l ∈ ls', l ≠ .read → .sys l ∈ ls
  answers : s.run.answers = s0.run.answers ++ (ρ ++ ρc)
  sent : s.run.sent = s0.run.sent ++ t
  took : N.toConn.Takes false → Sink.Reliable false ⟨ω, φ, []⟩
  reads : ∃ xs, s.sys.reads = s0.sys.reads ++ xs ∧ xs.length ≤ ls'.length ∧
    ∀ tail, callMany (AsyncReader.poll P prof) xs.length (s0.half.on (ρ ++ tail)) = (hm.on tail, xs)

theorem AsyncShapedN.Done.more {N : PollConn σ} {hN : N.Keeps} {s0 s : AsyncShapedN σ R} {ls : List (ShapedLabel σ AsyncLabel)}
    (D : AsyncShapedN.Done hN P prof s0 s ls) (l : ShapedLabel σ AsyncLabel) : Nonempty (AsyncShapedN.Done hN P prof s0 s (ls ++ [l])) := by
  have h1 := D.labels.1
  exact ⟨{ D with labels := ⟨by rw [List.length_append]; omega, fun x hx hr => by simp [D.labels.2 x hx hr]⟩ }⟩

theorem AsyncShapedN.Done.step {N : PollConn σ} {hN : N.Keeps} {s0 s : AsyncShapedN σ R} {ls : List (ShapedLabel σ AsyncLabel)}
    (D : Nonempty (AsyncShapedN.Done hN P prof s0 s ls)) (l : ShapedLabel σ AsyncLabel) :
    Nonempty (AsyncShapedN.Done hN P prof s0 (s.step N P prof l) (ls ++ [l])) := by
  obtain ⟨D⟩ := D
  obtain ⟨D1⟩ := D.more l
  cases l with
  | peer x => exact ⟨{ D1 with }⟩
  | reading =>
    simp only [AsyncShapedN.step]
    cases hs : s.half.step N P prof s.run with
    | none => exact ⟨D1⟩
    | some y =>
    obtain ⟨h, r, y⟩ := y
    cases y with
    | none =>
      obtain ⟨ρ1, m, h1, h2⟩ := D1.mid.goes hs
      exact ⟨{ D1 with
        ρc := D1.ρc ++ ρ1
        mid := m
        answers := by simp only [h1, D1.answers, List.append_assoc]
        sent := by simp only [h2, D1.sent] }⟩
    | some x =>
      obtain ⟨ρ1, e, m, h1, h2⟩ := D.mid.ends hs
      refine ⟨{ D with
        ρ := D.ρ ++ D.ρc ++ ρ1
        ρc := []
        hm := h
        ls' := D.ls' ++ [.read]
        sim := fun tρ tω tφ o => ?_
        labels := ⟨by have := D.labels.1; simp only [List.length_append, List.length_singleton]; omega, fun x hx hr => ?_⟩
        mid := m
        answers := by simp only [h1, D.answers, List.append_assoc, List.append_nil]
        sent := by simp only [h2, D.sent]
        reads := ?_ }⟩
      · have hsim := D.sim (D.ρc ++ ρ1 ++ tρ) tω tφ o
        have e : (D.hm.on (D.ρc ++ ρ1 ++ tρ)).poll P prof = (h.on tρ, x) := e tρ
        simp only [List.append_assoc] at hsim e ⊢
        rw [AsyncShapedSys.run_snoc, hsim]
        simp only [AsyncShapedSys.step, AsyncShapedSys.over, shapedPoll_record, e]
      · rcases List.mem_append.1 hx with hx | hx
        · simp [D.labels.2 x hx hr]
        · simp only [List.mem_singleton] at hx
          exact absurd hx hr
      · obtain ⟨xs, e1, e3, e2⟩ := D.reads
        have e : ∀ tail, (D.hm.on (D.ρc ++ ρ1 ++ tail)).poll P prof = (h.on tail, x) := e
        have hx : (recordPoll s.sys.reader.recorded x).2 = x := by
          have := C42_shaped_poll (P := P) (prof := prof) ⟨D.hm.on (D.ρc ++ ρ1 ++ []), s.sys.reader.recorded⟩
          rw [shapedPoll_record, e] at this
          exact this.2
        refine ⟨xs ++ [x], by simp only [e1, hx, List.append_assoc], by simp [e3], fun tail => ?_⟩
        have hr := e2 (D.ρc ++ ρ1 ++ tail)
        have e := e tail
        simp only [List.length_append, List.length_singleton]
        rw [callMany_succ]
        simp only [List.append_assoc] at hr e ⊢
        simp only [hr, e]
  | sys l =>
    by_cases hl : l = .read
    · subst hl
      exact ⟨{ D1 with mid := D1.mid.start }⟩
    · have hstep : s.step N P prof (.sys l) = match N.toConn.ask (s.sys.asks l) s.run with
          | none => s
          | some (r, sink) => { s with sys := ({ s.sys with ws := s.sys.ws.over sink } : AsyncShapedSys R).step P prof l, run := r } := by
        cases l with
        | read => exact absurd rfl hl
        | call p => rfl
        | resume => rfl
        | cancel => rfl
        | drop => rfl
        | recv => rfl
        | tick => rfl
        | otherwise => rfl
        | task => rfl
      rw [hstep]
      cases ha : N.toConn.ask (s.sys.asks l) s.run with
      | none => exact ⟨D1⟩
      | some y =>
      obtain ⟨r, k⟩ := y
      obtain ⟨t, h1, h2, h3, h4, h5⟩ := AsyncShapedSys.step_asked (P := P) (prof := prof) s.sys hl ha
      refine ⟨{ D with
        ω := D.ω ++ k.script
        φ := D.φ ++ k.flushes
        t := D.t ++ t
        ls' := D.ls' ++ [l]
        sim := fun tρ tω tφ o => ?_
        labels := ⟨by have := D.labels.1; simp only [List.length_append, List.length_singleton]; omega, fun x hx hr => ?_⟩
        answers := by simp only [h3, D.answers]
        sent := by simp only [h2, D.sent, List.append_assoc]
        took := fun hT => ⟨fun e he => (List.mem_append.1 he).elim ((D.took hT).1 e)
            ((ask_takes hT (fun b hb => AsyncShapedSys.asks_ne hb) ha).1 e),
          fun e he => (List.mem_append.1 he).elim ((D.took hT).2 e)
            ((ask_takes hT (fun b hb => AsyncShapedSys.asks_ne hb) ha).2 e)⟩
        reads := by
          obtain ⟨xs, e1, e3, e2⟩ := D.reads
          exact ⟨xs, by rw [h5]; exact e1, by rw [List.length_append]; omega, e2⟩ }⟩
      · have hsim := D.sim tρ (k.script ++ tω) (k.flushes ++ tφ) o
        simp only [List.append_assoc] at hsim ⊢
        rw [AsyncShapedSys.run_snoc, hsim]
        simp only [h1, h4, h5, List.append_assoc]
      · rcases List.mem_append.1 hx with hx | hx
        · simp [D.labels.2 x hx hr]
        · simp only [List.mem_singleton] at hx
          subst hx
          simp

theorem AsyncShapedN.Done.runs {N : PollConn σ} {hN : N.Keeps} {s0 : AsyncShapedN σ R} (ls : List (ShapedLabel σ AsyncLabel)) :
    ∀ {s : AsyncShapedN σ R} {ls0 : List (ShapedLabel σ AsyncLabel)}, Nonempty (AsyncShapedN.Done hN P prof s0 s ls0) →
      Nonempty (AsyncShapedN.Done hN P prof s0 (s.runs N P prof ls) (ls0 ++ ls)) := by
  induction ls with
  | nil => intro s ls0 D; simpa [AsyncShapedN.runs] using D
  | cons l ls ih =>
    intro s ls0 D
    have := ih (AsyncShapedN.Done.step D l)
    simpa [AsyncShapedN.runs] using this

theorem AsyncShapedN.Done.init {N : PollConn σ} {hN : N.Keeps} {s0 : AsyncShapedN σ R} (hi : s0.half.busy = false) :
    Nonempty (AsyncShapedN.Done hN P prof s0 s0 []) :=
  ⟨{ ρ := [], ρc := [], ω := [], φ := [], t := [], hm := s0.half, ls' := [], sim := fun _ _ _ _ => by simp [AsyncShapedSys.run],
     mid := (asyncRefines hN).mid_idle hi, labels := by simp, answers := by simp, sent := by simp,
     took := fun _ => ⟨by simp, by simp⟩, reads := ⟨[], by simp, by simp, fun _ => rfl⟩ }⟩

end Bip324
