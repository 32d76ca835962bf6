import Verif.Lemmas.TrafficAsync
import Verif.Props.EndToEnd

/-! # What jobs put on the wire -/

namespace Bip324

variable {P : Prims} {prof : Profile} {R : Rng}

theorem Sent.append {o1 o2 o3 : OutboundCipher} {ps qs : List Payload} {a b : Bytes}
    (h1 : Sent P prof o1 ps o2 a) (h2 : Sent P prof o2 qs o3 b) :
    Sent P prof o1 (ps ++ qs) o3 (a ++ b) := by
  induction h1 with
  | nil => exact h2
  | cons hv he _ ih =>
    rw [List.append_assoc]
    exact .cons hv he (ih h2)

/-- A decoy as the shaper makes them during a session. -/
def ShaperDecoy (p : Payload) : Prop := ∃ n, 1 ≤ n ∧ n ≤ 1024 ∧ p = .decoy (zeros n)

theorem pad_some {s s' : Shaper R} {p : Payload} {d : Option Payload} {rec : List Nat}
    (h : s.pad p = some (s', d, rec)) :
    (∃ c, p.contents = some c) ∧ s'.config = s.config ∧
      (s.config.padding = .disabled → d = none ∧ s' = s) ∧
      (s.config.padding = .random → ∃ q, d = some q) ∧ ∀ q, d = some q → ShaperDecoy q := by
  unfold Shaper.pad at h
  cases hc : p.contents with
  | none => simp [hc] at h
  | some c =>
    rw [hc] at h
    cases hs : s.config.padding with
    | disabled =>
      simp only [hs, Option.some.injEq, Prod.mk.injEq] at h
      obtain ⟨rfl, rfl, -⟩ := h
      exact ⟨⟨c, rfl⟩, rfl, fun _ => ⟨rfl, rfl⟩, by simp, by simp⟩
    | random =>
      simp only [hs, Option.some.injEq, Prod.mk.injEq] at h
      obtain ⟨rfl, rfl, -⟩ := h
      refine ⟨⟨c, rfl⟩, rfl, by simp, fun _ => ⟨_, rfl⟩, ?_⟩
      intro q hq
      cases hq
      have := R.range_mem s.rng 1 MAX_DECOY_SIZE_BYTES (by decide)
      exact ⟨_, this.1, this.2, rfl⟩

theorem decoy_some {s s' : Shaper R} {d : Option Payload} {rec : List Nat}
    (h : s.decoy = (s', d, rec)) :
    s'.config = s.config ∧ (s.config.decoy = .disabled → d = none ∧ s' = s) ∧
      ∀ q, d = some q → ShaperDecoy q := by
  unfold Shaper.decoy at h
  cases hs : s.config.decoy with
  | disabled =>
    simp only [hs, Prod.mk.injEq] at h
    obtain ⟨rfl, rfl, -⟩ := h
    exact ⟨rfl, fun _ => ⟨rfl, rfl⟩, by simp⟩
  | random =>
    simp only [hs] at h
    split at h
    · simp only [Prod.mk.injEq] at h
      obtain ⟨rfl, rfl, -⟩ := h
      exact ⟨rfl, by simp, by simp⟩
    · simp only [Prod.mk.injEq] at h
      obtain ⟨rfl, rfl, -⟩ := h
      refine ⟨rfl, by simp, ?_⟩
      intro q hq
      cases hq
      have := R.range_mem (R.range s.rng 0 99).1 1 MAX_DECOY_SIZE_BYTES (by decide)
      exact ⟨_, this.1, this.2, rfl⟩

/-- The packets a successful job sends; those of the application are marked. -/
def Job.Marks : Job → List (Bool × Payload) → Prop
  | .write p, m => m = [(true, p)] ∨ ∃ d, ShaperDecoy d ∧ m = [(false, d), (true, p)]
  | .cover, m => m = [] ∨ ∃ d, ShaperDecoy d ∧ m = [(false, d)]

theorem write_sent {f : Flavour} {w w' : Writer} {p : Payload}
    (h : w.write f P prof p = (w', .ok ())) :
    ∃ bytes, Sent P prof w.cipher [p] w'.cipher bytes ∧ w'.writer.out = w.writer.out ++ bytes := by
  obtain ⟨t, c, pkt, hv, he, ho⟩ := write_ok_inv h
  exact ⟨pkt ++ [], .cons hv he (.nil _), by simpa using ho⟩

theorem write_job_ok {f : Flavour} {ws ws' : WriterState R} {p : Payload}
    (h : ws.write f P prof p = (ws', .ok ())) :
    ∃ m bytes, Job.Marks (.write p) m ∧
      Sent P prof ws.writer.cipher (m.map (·.2)) ws'.writer.cipher bytes ∧
      ws'.writer.writer.out = ws.writer.writer.out ++ bytes ∧
      (ws.shaper.config.padding = .disabled → m = [(true, p)]) ∧
      (ws.shaper.config.padding = .random → m.length = 2) := by
  unfold WriterState.write at h
  cases hp : ws.shaper.pad p with
  | none => simp [hp] at h
  | some x =>
    obtain ⟨sh, d, rec⟩ := x
    obtain ⟨-, -, hdis, hran, hd⟩ := pad_some hp
    rw [hp] at h
    cases d with
    | none =>
      cases hw : ws.writer.write f P prof p with
      | mk w r =>
      simp only [hw, Prod.mk.injEq] at h
      obtain ⟨rfl, rfl⟩ := h
      obtain ⟨b, h1, h2⟩ := write_sent hw
      exact ⟨[(true, p)], b, .inl rfl, h1, h2, fun _ => rfl, fun h => by
        obtain ⟨q, hq⟩ := hran h; cases hq⟩
    | some q =>
      have hq := hd q rfl
      cases hw : ws.writer.write f P prof q with
      | mk w r =>
      cases r with
      | ok u =>
        cases hw2 : w.write f P prof p with
        | mk w2 r2 =>
        simp only [hw, hw2, Prod.mk.injEq] at h
        obtain ⟨rfl, rfl⟩ := h
        obtain ⟨b, h1, h2⟩ := write_sent hw
        obtain ⟨b2, h3, h4⟩ := write_sent hw2
        refine ⟨[(false, q), (true, p)], b ++ b2, .inr ⟨q, hq, rfl⟩, h1.append h3, ?_, ?_, fun _ => rfl⟩
        · simp only [h4, h2, List.append_assoc]
        · intro h; have := (hdis h).1; cases this
      | err e => simp [hw] at h
      | panic => simp [hw] at h

theorem cover_job_ok {f : Flavour} {ws ws' : WriterState R}
    (h : ws.cover f P prof = (ws', .ok ())) :
    ∃ m bytes, Job.Marks .cover m ∧
      Sent P prof ws.writer.cipher (m.map (·.2)) ws'.writer.cipher bytes ∧
      ws'.writer.writer.out = ws.writer.writer.out ++ bytes := by
  unfold WriterState.cover at h
  cases hp : ws.shaper.decoy with
  | mk sh x =>
  obtain ⟨d, rec⟩ := x
  obtain ⟨-, -, hd⟩ := decoy_some hp
  cases d with
  | none =>
    simp only [hp, Prod.mk.injEq, and_true] at h
    subst h
    exact ⟨[], [], .inl rfl, .nil _, by simp⟩
  | some q =>
    cases hw : ws.writer.write f P prof q with
    | mk w r =>
    simp only [hp, hw, Prod.mk.injEq] at h
    obtain ⟨rfl, rfl⟩ := h
    obtain ⟨b, h1, h2⟩ := write_sent hw
    exact ⟨[(false, q)], b, .inr ⟨q, hd q rfl, rfl⟩, h1, h2⟩

theorem exec_ok {f : Flavour} {ws ws' : WriterState R} {job : Job}
    (h : ws.exec f P prof job = (ws', .ok ())) :
    ∃ m bytes, job.Marks m ∧
      Sent P prof ws.writer.cipher (m.map (·.2)) ws'.writer.cipher bytes ∧
      ws'.writer.writer.out = ws.writer.writer.out ++ bytes := by
  cases job with
  | write p =>
    obtain ⟨m, b, h1, h2, h3, -⟩ := write_job_ok h
    exact ⟨m, b, h1, h2, h3⟩
  | cover => exact cover_job_ok h

/-- The payloads of the application among the marked packets. -/
def ownOf : List (Bool × Payload) → List Payload
  | [] => []
  | (true, p) :: m => p :: ownOf m
  | (false, _) :: m => ownOf m

theorem ownOf_append (a b : List (Bool × Payload)) : ownOf (a ++ b) = ownOf a ++ ownOf b := by
  induction a with
  | nil => rfl
  | cons x a ih =>
    obtain ⟨c, p⟩ := x
    cases c <;> simp [ownOf, ih]

theorem Job.Marks.own {job : Job} {m : List (Bool × Payload)} (h : job.Marks m)
    (r : Outcome ProtocolError Unit) :
    ownOf m = writtenBy [(job, r)] ∧ ∀ x ∈ m, x.1 = false → ShaperDecoy x.2 := by
  cases job with
  | write p =>
    rcases h with rfl | ⟨d, hd, rfl⟩
    · simp [ownOf, writtenBy, writesOf]
    · simp [ownOf, writtenBy, writesOf, hd]
  | cover =>
    rcases h with rfl | ⟨d, hd, rfl⟩
    · simp [ownOf, writtenBy, writesOf]
    · simp [ownOf, writtenBy, writesOf, hd]

theorem Serial.cons_inv {f : Flavour} {ws0 ws1 : WriterState R} {job : Job}
    {r : Outcome ProtocolError Unit} {tr : List (Job × Outcome ProtocolError Unit)}
    (h : Serial f P prof ws0 ((job, r) :: tr) ws1) :
    ∃ ws, ws0.exec f P prof job = (ws, r) ∧ Serial f P prof ws tr ws1 := by
  unfold Serial at h
  simp only [List.map_cons, runOne, Prod.mk.injEq, List.cons.injEq] at h
  obtain ⟨h1, h2, h3⟩ := h
  exact ⟨(ws0.exec f P prof job).1, by rw [← h2], by unfold Serial; rw [← h1, ← h3]⟩

/-- If all jobs succeed, the wire carries whole packets: the application's payloads in order, and
decoys. -/
theorem Serial.sent {f : Flavour} {tr : List (Job × Outcome ProtocolError Unit)}
    {ws0 ws1 : WriterState R} (h : Serial f P prof ws0 tr ws1) (hok : ∀ x ∈ tr, x.2 = .ok ()) :
    ∃ m bytes, Sent P prof ws0.writer.cipher (m.map (·.2)) ws1.writer.cipher bytes ∧
      ws1.writer.writer.out = ws0.writer.writer.out ++ bytes ∧ ownOf m = writtenBy tr ∧
      ∀ x ∈ m, x.1 = false → ShaperDecoy x.2 := by
  induction tr generalizing ws0 with
  | nil =>
    unfold Serial at h
    simp only [List.map_nil, runOne, Prod.mk.injEq, and_true] at h
    subst h
    exact ⟨[], [], .nil _, by simp, rfl, by simp⟩
  | cons x tr ih =>
    obtain ⟨job, r⟩ := x
    obtain ⟨ws, he, hs⟩ := h.cons_inv
    have : r = .ok () := hok (job, r) (by simp)
    subst this
    obtain ⟨m, b, h1, h2, h3⟩ := exec_ok he
    obtain ⟨m', b', g1, g2, g3, g4⟩ := ih hs (fun x hx => hok x (by simp [hx]))
    obtain ⟨k1, k2⟩ := h1.own (.ok ())
    refine ⟨m ++ m', b ++ b', by rw [List.map_append]; exact h2.append g1, ?_, ?_, ?_⟩
    · rw [g2, h3, List.append_assoc]
    · rw [ownOf_append, k1, g3]
      cases job <;> simp [writtenBy, writesOf]
    · intro x hx
      rcases List.mem_append.1 hx with hx | hx
      · exact k2 x hx
      · exact g4 x hx

theorem write_reliable {f : Flavour} {w w' : Writer} {p : Payload} {r : Outcome ProtocolError Unit}
    (hw : w.writer.Reliable f.retry) (h : w.write f P prof p = (w', r)) :
    (r = .ok () ∨ r = .panic) ∧ w'.writer.Reliable f.retry := by
  cases hv : p.view with
  | none =>
    rw [Writer.write_none f w hv] at h
    simp only [Prod.mk.injEq] at h
    obtain ⟨rfl, rfl⟩ := h
    exact ⟨.inr rfl, hw⟩
  | some v =>
    obtain ⟨t, c⟩ := v
    rw [Writer.write_eq f w hv] at h
    cases he : w.cipher.encryptToVec P prof c t none with
    | mk o x =>
    cases x with
    | panic =>
      simp only [he, Prod.mk.injEq] at h
      obtain ⟨rfl, rfl⟩ := h
      exact ⟨.inr rfl, hw⟩
    | err e =>
      simp only [he, Prod.mk.injEq] at h
      obtain ⟨rfl, rfl⟩ := h
      exact ⟨.inr rfl, hw⟩
    | ok pkt =>
      obtain ⟨s, hs, -, hr⟩ := send_reliable hw pkt
      simp only [he, hs, Prod.mk.injEq] at h
      obtain ⟨rfl, rfl⟩ := h
      exact ⟨.inl rfl, hr⟩

theorem exec_reliable {f : Flavour} {ws ws' : WriterState R} {job : Job}
    {r : Outcome ProtocolError Unit} (hw : ws.writer.writer.Reliable f.retry)
    (h : ws.exec f P prof job = (ws', r)) :
    (r = .ok () ∨ r = .panic) ∧ ws'.writer.writer.Reliable f.retry := by
  cases job with
  | write p =>
    simp only [WriterState.exec, WriterState.write] at h
    cases hp : ws.shaper.pad p with
    | none =>
      simp only [hp, Prod.mk.injEq] at h
      obtain ⟨rfl, rfl⟩ := h
      exact ⟨.inr rfl, hw⟩
    | some x =>
      obtain ⟨sh, d, rec⟩ := x
      rw [hp] at h
      cases d with
      | none =>
        cases hw1 : ws.writer.write f P prof p with
        | mk w x =>
        simp only [hw1, Prod.mk.injEq] at h
        obtain ⟨rfl, rfl⟩ := h
        exact write_reliable hw hw1
      | some q =>
        cases hw1 : ws.writer.write f P prof q with
        | mk w x =>
        obtain ⟨k1, k2⟩ := write_reliable hw hw1
        cases x with
        | ok u =>
          cases hw2 : w.write f P prof p with
          | mk w2 x2 =>
          simp only [hw1, hw2, Prod.mk.injEq] at h
          obtain ⟨rfl, rfl⟩ := h
          exact write_reliable k2 hw2
        | err e =>
          simp only [hw1, Prod.mk.injEq] at h
          obtain ⟨rfl, rfl⟩ := h
          exact ⟨k1, k2⟩
        | panic =>
          simp only [hw1, Prod.mk.injEq] at h
          obtain ⟨rfl, rfl⟩ := h
          exact ⟨k1, k2⟩
  | cover =>
    simp only [WriterState.exec, WriterState.cover] at h
    cases hp : ws.shaper.decoy with
    | mk sh x =>
    obtain ⟨d, rec⟩ := x
    cases d with
    | none =>
      simp only [hp, Prod.mk.injEq] at h
      obtain ⟨rfl, rfl⟩ := h
      exact ⟨.inl rfl, hw⟩
    | some q =>
      cases hw1 : ws.writer.write f P prof q with
      | mk w x =>
      simp only [hp, hw1, Prod.mk.injEq] at h
      obtain ⟨rfl, rfl⟩ := h
      exact write_reliable hw hw1

theorem Serial.reliable {f : Flavour} {tr : List (Job × Outcome ProtocolError Unit)}
    {ws0 ws1 : WriterState R} (h : Serial f P prof ws0 tr ws1)
    (hw : ws0.writer.writer.Reliable f.retry) : ∀ x ∈ tr, x.2 = .ok () ∨ x.2 = .panic := by
  induction tr generalizing ws0 with
  | nil => simp
  | cons x tr ih =>
    obtain ⟨job, r⟩ := x
    obtain ⟨ws, he, hs⟩ := h.cons_inv
    obtain ⟨k1, k2⟩ := exec_reliable hw he
    intro x hx
    rcases List.mem_cons.1 hx with rfl | hx
    · exact k1
    · exact ih hs k2 x hx

/-! ## The wire only grows -/

theorem exec_out (f : Flavour) (ws : WriterState R) (job : Job) :
    ws.writer.writer.out <+: (ws.exec f P prof job).1.writer.writer.out := by
  cases job with
  | write p =>
    simp only [WriterState.exec, WriterState.write]
    cases hp : ws.shaper.pad p with
    | none => exact List.prefix_rfl
    | some x =>
      obtain ⟨sh, d, rec⟩ := x
      cases d with
      | none => exact write_out f ws.writer p
      | some q =>
        have h1 := write_out (P := P) (prof := prof) f ws.writer q
        cases hw : ws.writer.write f P prof q with
        | mk w r =>
        rw [hw] at h1
        cases r with
        | ok u =>
          simp only [hw]
          exact h1.trans (write_out f w p)
        | err e => simpa only [hw] using h1
        | panic => simpa only [hw] using h1
  | cover =>
    simp only [WriterState.exec, WriterState.cover]
    cases hp : ws.shaper.decoy with
    | mk sh x =>
    obtain ⟨d, rec⟩ := x
    cases d with
    | none => exact List.prefix_rfl
    | some q => exact write_out f ws.writer q

theorem Serial.out {f : Flavour} {tr : List (Job × Outcome ProtocolError Unit)}
    {ws0 ws1 : WriterState R} (h : Serial f P prof ws0 tr ws1) :
    ws0.writer.writer.out <+: ws1.writer.writer.out := by
  induction tr generalizing ws0 with
  | nil =>
    unfold Serial at h
    simp only [List.map_nil, runOne, Prod.mk.injEq, and_true] at h
    subst h
    exact List.prefix_rfl
  | cons x tr ih =>
    obtain ⟨job, r⟩ := x
    obtain ⟨ws, he, hs⟩ := h.cons_inv
    have := exec_out (P := P) (prof := prof) f ws0 job
    rw [he] at this
    exact this.trans (ih hs)

theorem WProc.finish_out (f : Flavour) (w : Writer) (pc : WProc) :
    w.writer.out <+: (pc.finish f P prof w).1.writer.out := by
  cases pc with
  | start p => exact write_out f w p
  | sending rest =>
    obtain ⟨pre, -, ho, -⟩ := send_out w.writer f.retry rest
    simp only [WProc.finish]
    cases hs : w.writer.send f.retry rest with
    | mk s x =>
    rw [hs] at ho
    cases x <;> exact ⟨pre, ho.symm⟩
  | flushing =>
    have := flush_out w.writer
    simp only [WProc.finish]
    cases hs : w.writer.flush with
    | mk s x =>
    rw [hs] at this
    cases x <;> exact ⟨[], by simp only [List.append_nil]; exact this.symm⟩
  | done r => exact List.prefix_rfl

theorem JobPc.finish_out (f : Flavour) (ws : WriterState R) (pc : JobPc) :
    ws.writer.writer.out <+: (pc.finish f P prof ws).1.writer.writer.out := by
  cases pc with
  | start job => exact exec_out f ws job
  | padding w p =>
    have h1 := WProc.finish_out (P := P) (prof := prof) f ws.writer w
    simp only [JobPc.finish]
    cases hw : w.finish f P prof ws.writer with
    | mk w' r =>
    rw [hw] at h1
    cases r with
    | ok u => exact h1.trans (write_out f w' p)
    | err e => exact h1
    | panic => exact h1
  | payload w => exact WProc.finish_out f ws.writer w
  | cover w => exact WProc.finish_out f ws.writer w
  | done r => exact List.prefix_rfl

end Bip324
