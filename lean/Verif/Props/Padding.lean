import Verif.Props.Observer

/-!
# C58: what padding hides

traffic/README.md: "Padding is where the library immediately follows a genuine packet send with a decoy packet. This
makes it hard for observers to determine where one message ends and another begins, hiding the genuine packet size."
In the code the decoy comes first, and the two packets are written and flushed one after the other.
-/

namespace Bip324

variable {P P' : Prims} {prof : Profile} {R R' : Rng}

/-! ## One write -/

/-- **C58** (what a padded write is).  With padding, a successful write is a successful write of a decoy of 1 to 1024
zero bytes, followed at once by that of the payload; each of the two ends with its own flush. -/
theorem C58_pair_partial {f : Flavour} {ws ws' : WriterState R} {p : Payload}
    (hc : ws.shaper.config.padding = .random) (h : ws.write f P prof p = (ws', .ok ())) :
    ∃ n w, 1 ≤ n ∧ n ≤ 1024 ∧ ws.writer.write f P prof (.decoy (zeros n)) = (w, .ok ()) ∧
      w.write f P prof p = (ws'.writer, .ok ()) := by
  unfold WriterState.write at h
  cases hp : ws.shaper.pad p with
  | none => simp [hp] at h
  | some x =>
    obtain ⟨sh, d, rec⟩ := x
    obtain ⟨-, -, -, hran, hd⟩ := pad_some hp
    obtain ⟨q, rfl⟩ := hran hc
    obtain ⟨n, n1, n2, rfl⟩ := hd q rfl
    rw [hp] at h
    cases hw : ws.writer.write f P prof (.decoy (zeros n)) with
    | mk w r =>
    cases r with
    | ok u =>
      cases hw2 : w.write f P prof p with
      | mk w2 r2 =>
      simp only [hw, hw2, Prod.mk.injEq] at h
      obtain ⟨rfl, rfl⟩ := h
      exact ⟨n, w, n1, n2, hw, hw2⟩
    | err e => simp [hw] at h
    | panic => simp [hw] at h

/-- **C58** (the total).  Of a padded write as a whole an observer learns the length of the payload up to 1023 bytes:
the bytes added are between 41 and 1064 more. -/
theorem C58_total_partial (hP : Lawful P) {f : Flavour} {ws ws' : WriterState R} {p : Payload}
    (hc : ws.shaper.config.padding = .random) (h : ws.write f P prof p = (ws', .ok ())) :
    ws.writer.writer.out.length + p.size + 41 ≤ ws'.writer.writer.out.length ∧
    ws'.writer.writer.out.length ≤ ws.writer.writer.out.length + p.size + 1064 := by
  obtain ⟨n, w, n1, n2, h1, h2⟩ := C58_pair_partial hc h
  have l1 := C57_plain_exact hP f h1
  have l2 := C57_plain_exact hP f h2
  have hz : (Payload.decoy (zeros n)).size = n := by
    simp [Payload.size, Payload.decoy, Payload.contents, zeros]
  rw [hz] at l1
  omega

/-- A generator that always wants the same number. -/
def constRng (d : Nat) : Rng where
  State := Unit
  range _ lo hi := ((), max lo (min d hi))
  range_mem := by intro _ lo hi h; simp only; omega
  fill _ n := ((), zeros n)
  fill_length := by intro _ n; simp [zeros]

/-- **C58** (what is hidden).  Payloads whose lengths differ by at most 1023 can be padded to the same total: for each
two there are random numbers with which the two writes add the same number of bytes. -/
theorem C58_ambiguous_partial (hP : Lawful P) (f : Flavour) (w : Writer) {p q : Payload}
    (h : p.size ≤ q.size) (h' : q.size ≤ p.size + 1023) :
    ∃ d e, ∀ wp wq,
      WriterState.write (R := constRng d) f P prof ⟨w, ⟨⟨.random, .disabled⟩, ()⟩, []⟩ p = (wp, .ok ()) →
      WriterState.write (R := constRng e) f P prof ⟨w, ⟨⟨.random, .disabled⟩, ()⟩, []⟩ q = (wq, .ok ()) →
      wp.writer.writer.out.length = wq.writer.writer.out.length := by
  have key : ∀ (d : Nat) (p : Payload) wp, 1 ≤ d → d ≤ 1024 →
      WriterState.write (R := constRng d) f P prof ⟨w, ⟨⟨.random, .disabled⟩, ()⟩, []⟩ p = (wp, .ok ()) →
      wp.writer.writer.out.length = w.writer.out.length + d + p.size + 40 := by
    intro d p wp d1 d2 h
    unfold WriterState.write Shaper.pad at h
    cases hc : p.contents with
    | none => rw [hc] at h; simp at h
    | some c =>
      have hm : max 1 (min d MAX_DECOY_SIZE_BYTES) = d := by simp only [MAX_DECOY_SIZE_BYTES]; omega
      rw [hc] at h
      simp only [constRng] at h
      rw [hm] at h
      cases hw : w.write f P prof (.decoy (zeros d)) with
      | mk w1 r =>
      rw [hw] at h
      cases r with
      | ok u =>
        cases hw2 : w1.write f P prof p with
        | mk w2 r2 =>
        simp only [hw2] at h
        obtain ⟨rfl, rfl⟩ := h
        have l1 := C57_plain_exact hP f hw
        have l2 := C57_plain_exact hP f hw2
        have hz : (Payload.decoy (zeros d)).size = d := by
          simp [Payload.size, Payload.decoy, Payload.contents, zeros]
        show w2.writer.out.length = _
        omega
      | err e => cases (congrArg Prod.snd h : Outcome.err e = .ok ())
      | panic => cases (congrArg Prod.snd h : Outcome.panic = .ok ())
  refine ⟨q.size - p.size + 1, 1, fun wp wq h1 h2 => ?_⟩
  have := key _ _ _ (by omega) (by omega) h1
  have := key _ _ _ (by omega) (by omega) h2
  omega

/-! ## Whole sessions -/

/-- The transport takes whatever it is given at once, and never fails. -/
def Sink.Open (s : Sink) : Prop := s.script = [] ∧ s.flushes = []

/-- How far a write of contents of length `n` is: which packet lengths are on the wire. -/
def WProc.Shown (n : Nat) : WProc → List Nat → Prop
  | .start p, js => p.size = n ∧ js = []
  | .sending rest, js => (rest.length = n + 20 ∧ js = []) ∨ (rest = [] ∧ js = [n + 20])
  | .flushing, js => js = [n + 20]
  | .done (.ok ()), js => js = [n + 20]
  | .done (.err _), _ => False
  | .done .panic, _ => True

/-- The wire grew by `js' - js`, at most by one packet. -/
def Grew (a b : Nat) (js js' : List Nat) : Prop :=
  (b = a ∧ js' = js) ∨ ∃ k, 0 < k ∧ b = a + k ∧ js' = js ++ [k]

theorem WProc.step_shown (hP : Lawful P) (f : Flavour) {w : Writer} (hw : w.writer.Open) {n : Nat} {pc : WProc}
    {js : List Nat} (h : pc.Shown n js) :
    (pc.step f P prof w).1.writer.Open ∧
    ∃ js', (pc.step f P prof w).2.Shown n js' ∧
      Grew w.writer.out.length (pc.step f P prof w).1.writer.out.length js js' := by
  obtain ⟨h1, h2⟩ := hw
  cases pc with
  | start p =>
    obtain ⟨hn, rfl⟩ := h
    rcases Payload.Alike.cases (Payload.Alike.refl p) with ⟨e1, -⟩ | ⟨c, d, t, u, e1, e2, -, -, -⟩
    · simp only [WProc.step, e1]
      exact ⟨⟨h1, h2⟩, [], trivial, .inl ⟨rfl, rfl⟩⟩
    · simp only [WProc.step, e1, e2]
      have hs : c.length = n := by rw [← hn]; simp [Payload.size, e1]
      rcases he : w.cipher.encryptToVec P prof c t none with ⟨o, r⟩
      cases r with
      | ok pkt =>
        obtain ⟨pc, ct, tag, lc, encLen, g1, g2, -, rfl⟩ := OutboundCipher.encryptToVec_ok_inv hP _ _ _ _ he
        have k1 := FSAead.encrypt_lengths hP g1
        have k2 := FSStream.crypt_length g2
        rw [leBytes_length] at k2
        refine ⟨⟨h1, h2⟩, [], .inl ⟨?_, rfl⟩, .inl ⟨rfl, rfl⟩⟩
        simp only [List.length_append, k1.1, k1.2, k2, List.length_cons]
        omega
      | err e =>
        exfalso
        obtain ⟨_, _, r, _, g1, -, -, g4⟩ := OutboundCipher.encryptToVec_alike (prof := prof) hP hP
          (a := w.cipher) (b := w.cipher) ⟨rfl, rfl, rfl⟩ (x := c) rfl t t
        rw [he] at g1
        cases g1
        rcases g4 with ⟨g, -⟩ | ⟨_, _, g, -, -⟩ <;> cases g
      | panic => exact ⟨⟨h1, h2⟩, [], trivial, .inl ⟨rfl, rfl⟩⟩
  | sending rest =>
    rcases h with ⟨hl, rfl⟩ | ⟨rfl, rfl⟩
    · cases rest with
      | nil => simp at hl
      | cons b bs =>
        simp only [WProc.step, h1]
        refine ⟨⟨rfl, h2⟩, [n + 20], .inr ⟨rfl, rfl⟩, .inr ⟨n + 20, by omega, ?_, rfl⟩⟩
        simp only [List.length_append, hl]
    · exact ⟨⟨h1, h2⟩, [n + 20], rfl, .inl ⟨rfl, rfl⟩⟩
  | flushing =>
    have hf : w.writer.flush = (w.writer, .ok ()) := by unfold Sink.flush; rw [h2]
    simp only [WProc.step, hf]
    exact ⟨⟨h1, h2⟩, js, h, .inl ⟨rfl, rfl⟩⟩
  | done r => exact ⟨⟨h1, h2⟩, js, h, .inl ⟨rfl, rfl⟩⟩

/-- How far a padded write of `p` is. -/
def JobPc.Shown (p : Payload) : JobPc → List Nat → Prop
  | .start (.write q), js => q = p ∧ js = []
  | .start .cover, _ => False
  | .padding w q, js => q = p ∧ ∃ d, w.Shown d js
  | .payload w, js => ∃ d js', js = (d + 20) :: js' ∧ w.Shown p.size js'
  | .cover _, _ => False
  | .done (.ok ()), js => ∃ d, js = [d + 20, p.size + 20]
  | .done (.err _), _ => False
  | .done .panic, _ => True

theorem Grew.cons {a b : Nat} {js js' : List Nat} (h : Grew a b js js') (x : List Nat) :
    Grew a b (x ++ js) (x ++ js') := by
  rcases h with ⟨h1, rfl⟩ | ⟨k, h1, h2, rfl⟩
  · exact .inl ⟨h1, rfl⟩
  · exact .inr ⟨k, h1, h2, by simp⟩

theorem Grew.rfl (a : Nat) (js : List Nat) : Grew a a js js := .inl ⟨Eq.refl _, Eq.refl _⟩

theorem JobPc.step_shown (hP : Lawful P) (f : Flavour) {ws : WriterState R} (hw : ws.writer.writer.Open)
    (hc : ws.shaper.config.padding = .random) {p : Payload} {pc : JobPc} {js : List Nat} (h : pc.Shown p js) :
    (pc.step f P prof ws).1.writer.writer.Open ∧
    (pc.step f P prof ws).1.shaper.config = ws.shaper.config ∧
    ∃ js', (pc.step f P prof ws).2.Shown p js' ∧
      Grew ws.writer.writer.out.length (pc.step f P prof ws).1.writer.writer.out.length js js' := by
  cases pc with
  | start job =>
    cases job with
    | cover => exact h.elim
    | write q =>
      obtain ⟨rfl, rfl⟩ := h
      simp only [JobPc.step]
      cases hp : ws.shaper.pad q with
      | none => exact ⟨hw, rfl, [], trivial, .rfl _ _⟩
      | some x =>
        obtain ⟨sh, d, rec⟩ := x
        obtain ⟨-, hcfg, -, hran, -⟩ := pad_some hp
        obtain ⟨d, rfl⟩ := hran hc
        exact ⟨hw, hcfg, [], ⟨rfl, d.size, rfl, rfl⟩, .rfl _ _⟩
  | padding w q =>
    obtain ⟨rfl, d, hd⟩ := h
    by_cases hn : ∀ r, w ≠ .done r
    · have go : (JobPc.padding w q).step f P prof ws =
          ({ ws with writer := (w.step f P prof ws.writer).1 }, .padding (w.step f P prof ws.writer).2 q) := by
        cases w <;> first | rfl | exact absurd rfl (hn _)
      obtain ⟨o, js', s1, s2⟩ := WProc.step_shown (prof := prof) hP f hw hd
      rw [go]
      exact ⟨o, rfl, js', ⟨rfl, d, s1⟩, s2⟩
    · have ⟨r, hr⟩ : ∃ r, w = .done r := Classical.byContradiction fun c => hn fun r hr => c ⟨r, hr⟩
      subst hr
      cases r with
      | ok u =>
        have : js = [d + 20] := hd
        subst this
        exact ⟨hw, rfl, [d + 20], ⟨d, [], rfl, rfl, rfl⟩, .rfl _ _⟩
      | err e => exact hd.elim
      | panic => exact ⟨hw, rfl, js, trivial, .rfl _ _⟩
  | payload w =>
    obtain ⟨d, js1, rfl, hd⟩ := h
    by_cases hn : ∀ r, w ≠ .done r
    · have go : (JobPc.payload w).step f P prof ws =
          ({ ws with writer := (w.step f P prof ws.writer).1 }, .payload (w.step f P prof ws.writer).2) := by
        cases w <;> first | rfl | exact absurd rfl (hn _)
      obtain ⟨o, js', s1, s2⟩ := WProc.step_shown (prof := prof) hP f hw hd
      rw [go]
      exact ⟨o, rfl, (d + 20) :: js', ⟨d, js', rfl, s1⟩, s2.cons [d + 20]⟩
    · have ⟨r, hr⟩ : ∃ r, w = .done r := Classical.byContradiction fun c => hn fun r hr => c ⟨r, hr⟩
      subst hr
      cases r with
      | ok u =>
        have : js1 = [p.size + 20] := hd
        subst this
        exact ⟨hw, rfl, [d + 20, p.size + 20], ⟨d, rfl⟩, .rfl _ _⟩
      | err e => exact hd.elim
      | panic => exact ⟨hw, rfl, (d + 20) :: js1, trivial, .rfl _ _⟩
  | cover w => exact h.elim
  | done r => exact ⟨hw, rfl, js, h, .rfl _ _⟩

/-- A cover job when there are no cover decoys. -/
def JobPc.Idle : JobPc → Prop
  | .start .cover => True
  | .done (.ok ()) => True
  | _ => False

theorem JobPc.step_idle (f : Flavour) {ws : WriterState R} (hc : ws.shaper.config.decoy = .disabled)
    {pc : JobPc} (h : pc.Idle) :
    (pc.step f P prof ws).1.writer = ws.writer ∧ (pc.step f P prof ws).1.shaper = ws.shaper ∧
    (pc.step f P prof ws).2.Idle := by
  cases pc with
  | start job =>
    cases job with
    | write q => exact h.elim
    | cover =>
      have hd : ws.shaper.decoy = (ws.shaper, none, []) := by unfold Shaper.decoy; rw [hc]
      simp only [JobPc.step, hd]
      exact ⟨trivial, trivial, trivial⟩
  | done r =>
    cases r with
    | ok u => exact ⟨rfl, rfl, trivial⟩
    | err e => exact h.elim
    | panic => exact h.elim
  | _ => exact h.elim

/-- Decoy, payload, decoy, payload, and so on: the lengths of their packets. -/
def woven : List Nat → List Nat → List Nat
  | d :: ds, n :: ns => (d + 20) :: (n + 20) :: woven ds ns
  | _, _ => []

theorem woven_snoc {ds ns : List Nat} (h : ds.length = ns.length) (d n : Nat) :
    woven (ds ++ [d]) (ns ++ [n]) = woven ds ns ++ [d + 20, n + 20] := by
  induction ds generalizing ns with
  | nil => cases ns with
    | nil => rfl
    | cons _ _ => simp at h
  | cons x xs ih =>
    cases ns with
    | nil => simp at h
    | cons y ys => simp only [List.cons_append, woven, ih (by simpa using h)]

/-- The sizes of the second of each two packets. -/
theorem woven_inj {ds es ns ms : List Nat} (h1 : ds.length = ns.length) (h2 : es.length = ms.length)
    (h : woven ds ns = woven es ms) : ns = ms := by
  induction ds generalizing ns es ms with
  | nil =>
    cases ns with
    | cons _ _ => simp at h1
    | nil =>
      cases es with
      | nil => cases ms with
        | nil => rfl
        | cons _ _ => simp at h2
      | cons e es => cases ms with
        | nil => simp at h2
        | cons _ _ => simp [woven] at h
  | cons d ds ih =>
    cases ns with
    | nil => simp at h1
    | cons n ns =>
      cases es with
      | nil => simp [woven] at h
      | cons e es =>
        cases ms with
        | nil => simp at h2
        | cons m ms =>
          simp only [woven, List.cons.injEq] at h
          obtain ⟨-, hn, ht⟩ := h
          rw [ih (by simpa using h1) (by simpa using h2) ht]
          congr 1; omega

/-- By how much a sequence of numbers grows, where it grows. -/
def jumps : List Nat → List Nat
  | a :: b :: t => if b = a then jumps (b :: t) else (b - a) :: jumps (b :: t)
  | _ => []

theorem jumps_grew {a b : Nat} {js js' t : List Nat} (h : Grew a b js js') :
    js' ++ jumps (b :: t) = js ++ jumps (a :: b :: t) := by
  rcases h with ⟨rfl, rfl⟩ | ⟨k, hk, rfl, rfl⟩
  · simp [jumps]
  · have h1 : k ≠ 0 := by omega
    have h2 : a + k - a = k := by omega
    simp [jumps, h1, h2]

/-! ## The threads -/

/-- The lengths `js` seen so far are explained by the writes. -/
structure ShapedSys.Shown (s : ShapedSys R) (js : List Nat) : Prop where
  op : s.ws.writer.writer.Open
  padding : s.ws.shaper.config.padding = .random
  decoy : s.ws.shaper.config.decoy = .disabled
  bg : ∀ pc, s.bg = .covering pc → pc.Idle
  app : ∃ ds cur, ds.length = s.returned.length ∧ js = woven ds (s.returned.map (·.1.size)) ++ cur ∧
    (∀ p pc, s.app = .writing p pc → pc.Shown p cur) ∧ ((∀ p pc, s.app ≠ .writing p pc) → cur = [])

/-- A write has not succeeded. -/
def ShapedSys.Broken (s : ShapedSys R) : Prop := ∃ x ∈ s.returned, x.2 ≠ .ok ()

theorem ShapedSys.returned_grows (s : ShapedSys R) (l : SysLabel) :
    s.returned <+: (s.step P prof l).returned := by
  cases l with
  | call p => simp only [ShapedSys.step]; split <;> exact List.prefix_refl _
  | drop => simp only [ShapedSys.step]; split <;> exact List.prefix_refl _
  | read => exact List.prefix_refl _
  | app =>
    show _ <+: (s.appStep P prof).returned
    unfold ShapedSys.appStep
    split
    · exact List.prefix_refl _
    · split
      · exact List.prefix_refl _
      · split
        · exact List.prefix_append _ _
        · exact List.prefix_refl _
    · exact List.prefix_append _ _
    · exact List.prefix_refl _
    · split <;> exact List.prefix_refl _
    · exact List.prefix_refl _
  | bg =>
    show _ <+: (s.bgStep P prof).returned
    unfold ShapedSys.bgStep
    split <;> first | exact List.prefix_refl _ | skip
    split <;> first | exact List.prefix_refl _ | skip
    split <;> exact List.prefix_refl _

theorem ShapedSys.Broken.step {s : ShapedSys R} (h : s.Broken) (l : SysLabel) : (s.step P prof l).Broken := by
  obtain ⟨x, hx, hb⟩ := h
  exact ⟨x, (ShapedSys.returned_grows s l).subset hx, hb⟩

theorem ShapedSys.Broken.run {s : ShapedSys R} (h : s.Broken) (ls : List SysLabel) :
    (s.run P prof ls).Broken := by
  induction ls generalizing s with
  | nil => exact h
  | cons l ls ih => exact ih (h.step l)

theorem ShapedSys.Shown.appStep (hP : Lawful P) {s : ShapedSys R} {js : List Nat} (h : s.Shown js) :
    (s.appStep P prof).Broken ∨ ∃ js', (s.appStep P prof).Shown js' ∧
      Grew s.ws.writer.writer.out.length (s.appStep P prof).ws.writer.writer.out.length js js' := by
  have same : s.appStep P prof = s → (s.appStep P prof).Broken ∨ ∃ js', (s.appStep P prof).Shown js' ∧
      Grew s.ws.writer.writer.out.length (s.appStep P prof).ws.writer.writer.out.length js js' := by
    intro e; rw [e]; exact .inr ⟨js, h, .rfl _ _⟩
  obtain ⟨ds, cur, e1, e2, e3, e4⟩ := h.app
  cases ha : s.app with
  | idle => exact same (by simp only [ShapedSys.appStep, ha])
  | gone => exact same (by simp only [ShapedSys.appStep, ha])
  | joining =>
    rcases ShapedSys.app_joins (P := P) (prof := prof) ha with e | ⟨e, -⟩
    · exact same e
    · rw [e]
      have hcur : cur = [] := e4 (by rw [ha]; exact fun _ _ h => AppPc.noConfusion h)
      exact .inr ⟨js, { h with app := ⟨ds, cur, e1, e2, fun _ _ h => AppPc.noConfusion h, fun _ => hcur⟩ },
        .rfl _ _⟩
  | locking p =>
    cases ho : s.owner with
    | some t => exact same (ShapedSys.app_blocked ha ho)
    | none =>
      cases hp : s.poisoned with
      | true =>
        rw [ShapedSys.app_poisoned ha ho hp]
        exact .inl ⟨(p, .panic), by simp, by simp⟩
      | false =>
        rw [ShapedSys.app_locks ha ho hp]
        have hcur : cur = [] := e4 (by rw [ha]; exact fun _ _ h => AppPc.noConfusion h)
        subst hcur
        refine .inr ⟨js, { h with app := ⟨ds, [], e1, e2, ?_, fun _ => rfl⟩ }, .rfl _ _⟩
        intro q pc hq
        cases hq
        exact ⟨rfl, rfl⟩
  | writing p pc =>
    by_cases hn : ∀ r, pc ≠ .done r
    · rw [ShapedSys.app_writes ha hn]
      obtain ⟨o, c, js', s1, s2⟩ := JobPc.step_shown (prof := prof) hP .sync h.op h.padding (e3 p pc ha)
      refine .inr ⟨woven ds (s.returned.map (·.1.size)) ++ js',
        ⟨o, by rw [c]; exact h.padding, by rw [c]; exact h.decoy, h.bg, ⟨ds, js', e1, rfl, ?_, ?_⟩⟩, ?_⟩
      · intro q pc' hq; cases hq; exact s1
      · intro hne; exact absurd rfl (hne _ _)
      · rw [e2]; exact s2.cons _
    · have ⟨r, hr⟩ : ∃ r, pc = .done r := Classical.byContradiction fun c => hn fun r hr => c ⟨r, hr⟩
      subst hr
      rw [ShapedSys.app_returns ha]
      have hs := e3 _ _ ha
      cases r with
      | ok u =>
        obtain ⟨d, rfl⟩ := hs
        refine .inr ⟨js, { h with
          app := ⟨ds ++ [d], [], by simp [e1], ?_, fun _ _ h => AppPc.noConfusion h, fun _ => rfl⟩ }, .rfl _ _⟩
        rw [e2, List.map_append, List.map_cons, List.map_nil, woven_snoc (by simp [e1]), List.append_nil]
      | err e => exact hs.elim
      | panic => exact .inl ⟨(p, .panic), by simp, by simp⟩

theorem ShapedSys.Shown.bgStep {s : ShapedSys R} {js : List Nat} (h : s.Shown js) :
    (s.bgStep P prof).Shown js ∧
      (s.bgStep P prof).ws.writer.writer.out.length = s.ws.writer.writer.out.length := by
  cases hb : s.bg with
  | checking =>
    simp only [ShapedSys.bgStep, hb]
    refine ⟨{ h with bg := ?_ }, trivial⟩
    intro pc; cases s.shutdown <;> intro hc <;> simp at hc
  | sleeping =>
    simp only [ShapedSys.bgStep, hb]
    exact ⟨{ h with bg := fun _ hc => BgPc.noConfusion hc }, trivial⟩
  | trying =>
    cases ho : s.owner with
    | some t =>
      rw [ShapedSys.bg_blocked hb ho]
      exact ⟨{ h with bg := fun _ hc => BgPc.noConfusion hc }, rfl⟩
    | none =>
      cases hp : s.poisoned with
      | true =>
        rw [ShapedSys.bg_poisoned hb ho hp]
        exact ⟨{ h with bg := fun _ hc => BgPc.noConfusion hc }, rfl⟩
      | false =>
        rw [ShapedSys.bg_locks hb ho hp]
        refine ⟨{ h with bg := ?_ }, rfl⟩
        intro pc hc; cases hc; trivial
  | covering pc =>
    have hi := h.bg pc hb
    by_cases hn : ∀ r, pc ≠ .done r
    · rw [ShapedSys.bg_writes hb hn]
      obtain ⟨g1, g2, g3⟩ := JobPc.step_idle (P := P) (prof := prof) .sync h.decoy hi
      refine ⟨⟨by rw [g1]; exact h.op, by rw [g2]; exact h.padding, by rw [g2]; exact h.decoy, ?_, h.app⟩,
        by rw [g1]⟩
      intro pc' hc; cases hc; exact g3
    · have ⟨r, hr⟩ : ∃ r, pc = .done r := Classical.byContradiction fun c => hn fun r hr => c ⟨r, hr⟩
      subst hr
      rw [ShapedSys.bg_unlocks hb]
      refine ⟨{ h with bg := ?_ }, rfl⟩
      intro pc'; split <;> intro hc <;> cases hc
  | finished =>
    have : s.bgStep P prof = s := by simp only [ShapedSys.bgStep, hb]
    rw [this]; exact ⟨h, rfl⟩
  | panicked =>
    have : s.bgStep P prof = s := by simp only [ShapedSys.bgStep, hb]
    rw [this]; exact ⟨h, rfl⟩

theorem ShapedSys.Shown.step (hP : Lawful P) {s : ShapedSys R} {js : List Nat} (h : s.Shown js) (l : SysLabel) :
    (s.step P prof l).Broken ∨ ∃ js', (s.step P prof l).Shown js' ∧
      Grew s.ws.writer.writer.out.length (s.step P prof l).ws.writer.writer.out.length js js' := by
  obtain ⟨ds, cur, e1, e2, e3, e4⟩ := h.app
  cases l with
  | app => exact h.appStep hP
  | bg =>
    obtain ⟨g1, g2⟩ := h.bgStep (P := P) (prof := prof)
    exact .inr ⟨js, g1, .inl ⟨g2, rfl⟩⟩
  | read => exact .inr ⟨js, { h with }, .rfl _ _⟩
  | call p =>
    cases ha : s.app with
    | idle =>
      have hcur : cur = [] := e4 (by rw [ha]; exact fun _ _ h => AppPc.noConfusion h)
      simp only [ShapedSys.step, ha]
      exact .inr ⟨js, { h with app := ⟨ds, cur, e1, e2, fun _ _ h => AppPc.noConfusion h, fun _ => hcur⟩ },
        .rfl _ _⟩
    | _ =>
      have : s.step P prof (.call p) = s := by simp only [ShapedSys.step, ha]
      rw [this]; exact .inr ⟨js, h, .rfl _ _⟩
  | drop =>
    cases ha : s.app with
    | idle =>
      have hcur : cur = [] := e4 (by rw [ha]; exact fun _ _ h => AppPc.noConfusion h)
      simp only [ShapedSys.step, ha]
      exact .inr ⟨js, { h with app := ⟨ds, cur, e1, e2, fun _ _ h => AppPc.noConfusion h, fun _ => hcur⟩ },
        .rfl _ _⟩
    | _ =>
      have : s.step P prof .drop = s := by simp only [ShapedSys.step, ha]
      rw [this]; exact .inr ⟨js, h, .rfl _ _⟩

theorem ShapedSys.trace_head (s : ShapedSys R) (ls : List SysLabel) :
    ∃ t, s.trace P prof ls = s.ws.writer.writer.out.length :: t := by
  cases ls <;> exact ⟨_, rfl⟩

theorem ShapedSys.Shown.run (hP : Lawful P) (ls : List SysLabel) {s : ShapedSys R} {js : List Nat}
    (h : s.Shown js) (hb : ¬ (s.run P prof ls).Broken) :
    (s.run P prof ls).Shown (js ++ jumps (s.trace P prof ls)) := by
  induction ls generalizing s js with
  | nil => simpa [jumps, ShapedSys.trace, ShapedSys.run] using h
  | cons l ls ih =>
    rcases h.step (P := P) (prof := prof) hP l with hb' | ⟨js', h1, h2⟩
    · exact absurd (ShapedSys.Broken.run (P := P) (prof := prof) hb' ls) hb
    · have := ih h1 hb
      obtain ⟨t, ht⟩ := ShapedSys.trace_head (P := P) (prof := prof) (s.step P prof l) ls
      show ((s.step P prof l).run P prof ls).Shown
        (js ++ jumps (s.ws.writer.writer.out.length :: (s.step P prof l).trace P prof ls))
      rw [ht] at this ⊢
      rw [← jumps_grew h2]
      exact this

/-- The sessions of C58: padding but no cover traffic, over a transport that takes every write at once. -/
structure PaddedOnly (w : Writer) (sh : Shaper R) : Prop where
  script : w.writer.script = []
  flushes : w.writer.flushes = []
  padding : sh.config.padding = .random
  decoy : sh.config.decoy = .disabled

/-- **C58** (threads; the size is not hidden).  With padding but no cover traffic, over a transport that takes every
write at once: when no write is in progress and all have succeeded, the bytes on the wire have grown in steps that are
alternately a padding decoy and a payload, whatever the schedule; so every second step is the length of a payload
plus 20. -/
theorem C58_threads_seen (hP : Lawful P) {p : SyncProtocol} {sh : Shaper R} (rec : List Nat)
    (h : PaddedOnly p.writer sh) (ls : List SysLabel) :
    let s := ShapedSys.init p sh rec
    (s.run P prof ls).app = .idle → (∀ x ∈ (s.run P prof ls).returned, x.2 = .ok ()) →
    ∃ ds, ds.length = (s.run P prof ls).returned.length ∧
      jumps (s.trace P prof ls) = woven ds ((s.run P prof ls).returned.map (·.1.size)) := by
  intro s hidle hok
  have h0 : s.Shown [] := ⟨⟨h.script, h.flushes⟩, h.padding, h.decoy, fun _ hc => BgPc.noConfusion hc,
    [], [], rfl, rfl, fun _ _ h => AppPc.noConfusion h, fun _ => rfl⟩
  have hb : ¬ (s.run P prof ls).Broken := fun ⟨x, hx, hb⟩ => hb (hok x hx)
  obtain ⟨ds, cur, e1, e2, -, e4⟩ := (h0.run hP ls hb).app
  have hcur : cur = [] := e4 (by rw [hidle]; exact fun _ _ h => AppPc.noConfusion h)
  subst hcur
  exact ⟨ds, e1, by simpa using e2⟩

/-- **C58** (threads; the README's claim is false).  If in two such sessions, with whatever keys, random numbers and
schedules, the wire grows in the same steps, then payloads of the same lengths were written: the steps determine the
lengths. -/
theorem C58_threads_counterexample (hP : Lawful P) (hP' : Lawful P') {p p' : SyncProtocol} {sh : Shaper R}
    {sh' : Shaper R'} (rec rec' : List Nat) (h : PaddedOnly p.writer sh) (h' : PaddedOnly p'.writer sh')
    (ls ls' : List SysLabel) :
    let s := ShapedSys.init p sh rec
    let s' := ShapedSys.init p' sh' rec'
    (s.run P prof ls).app = .idle → (∀ x ∈ (s.run P prof ls).returned, x.2 = .ok ()) →
    (s'.run P' prof ls').app = .idle → (∀ x ∈ (s'.run P' prof ls').returned, x.2 = .ok ()) →
    jumps (s.trace P prof ls) = jumps (s'.trace P' prof ls') →
    (s.run P prof ls).returned.map (·.1.size) = (s'.run P' prof ls').returned.map (·.1.size) := by
  intro s s' i1 o1 i2 o2 hj
  obtain ⟨ds, l1, e1⟩ := C58_threads_seen hP rec h ls i1 o1
  obtain ⟨es, l2, e2⟩ := C58_threads_seen hP' rec' h' ls' i2 o2
  refine woven_inj (ds := ds) (es := es) (by simpa using l1) (by simpa using l2) ?_
  rw [← e1, ← e2]; exact hj

/-! ## The task -/

structure AsyncShapedSys.Shown (s : AsyncShapedSys R) (js : List Nat) : Prop where
  op : s.ws.writer.writer.Open
  padding : s.ws.shaper.config.padding = .random
  decoy : s.ws.shaper.config.decoy = .disabled
  cover : ∀ pc, s.task = .covering pc → pc.Idle
  task : ∃ ds sent cur, ds.length = sent.length ∧ js = woven ds (sent.map Payload.size) ++ cur ∧
    (∀ c pc, s.task = .writing c pc → s.called = sent ++ c.payload :: s.queue.map (·.payload) ∧
      pc.Shown c.payload cur) ∧
    ((∀ c pc, s.task ≠ .writing c pc) → cur = [] ∧ s.called = sent ++ s.queue.map (·.payload))

/-- The task has panicked. -/
def AsyncShapedSys.Broken (s : AsyncShapedSys R) : Prop := s.task = .panicked

theorem AsyncShapedSys.Broken.step {s : AsyncShapedSys R} (h : s.Broken) (l : AsyncLabel) :
    (s.step P prof l).Broken := by
  unfold AsyncShapedSys.Broken at h ⊢
  cases l with
  | call p =>
    simp only [AsyncShapedSys.step]
    split
    · split <;> exact h
    · exact h
  | resume =>
    simp only [AsyncShapedSys.step]
    split
    · split
      · exact h
      · split <;> exact h
    · exact h
  | cancel => simp only [AsyncShapedSys.step]; split <;> exact h
  | drop => simp only [AsyncShapedSys.step]; split <;> exact h
  | recv => simp only [AsyncShapedSys.step, h]
  | tick => simp only [AsyncShapedSys.step, h]
  | otherwise => simp only [AsyncShapedSys.step, h]
  | task => simp only [AsyncShapedSys.step, AsyncShapedSys.taskStep, h]
  | read => exact h

theorem AsyncShapedSys.Broken.run {s : AsyncShapedSys R} (h : s.Broken) (ls : List AsyncLabel) :
    (s.run P prof ls).Broken := by
  induction ls generalizing s with
  | nil => exact h
  | cons l ls ih => exact ih (h.step l)

theorem AsyncShapedSys.Shown.taskStep (hP : Lawful P) {s : AsyncShapedSys R} {js : List Nat} (h : s.Shown js) :
    (s.taskStep P prof).Broken ∨ ∃ js', (s.taskStep P prof).Shown js' ∧
      Grew s.ws.writer.writer.out.length (s.taskStep P prof).ws.writer.writer.out.length js js' := by
  obtain ⟨ds, sent, cur, e1, e2, e3, e4⟩ := h.task
  cases ht : s.task with
  | writing c pc =>
    obtain ⟨hq, hs⟩ := e3 c pc ht
    by_cases hn : ∀ r, pc ≠ .done r
    · have ex : s.taskStep P prof = { s with
          ws := (pc.step .async P prof s.ws).1, task := .writing c (pc.step .async P prof s.ws).2 } := by
        unfold AsyncShapedSys.taskStep; rw [ht]
        cases pc <;> first | rfl | exact absurd rfl (hn _)
      rw [ex]
      obtain ⟨o, c', js', s1, s2⟩ := JobPc.step_shown (prof := prof) hP .async h.op h.padding hs
      refine .inr ⟨woven ds (sent.map Payload.size) ++ js',
        ⟨o, by rw [c']; exact h.padding, by rw [c']; exact h.decoy, fun _ hc => TaskPc.noConfusion hc,
          ⟨ds, sent, js', e1, rfl, ?_, ?_⟩⟩, ?_⟩
      · intro q pc' hq'; cases hq'; exact ⟨hq, s1⟩
      · intro hne; exact absurd rfl (hne _ _)
      · rw [e2]; exact s2.cons _
    · have ⟨r, hr⟩ : ∃ r, pc = .done r := Classical.byContradiction fun c => hn fun r hr => c ⟨r, hr⟩
      subst hr
      cases r with
      | ok u =>
        obtain ⟨d, rfl⟩ := hs
        have ex : s.taskStep P prof = { s with
            task := .select false false, answers := s.answers ++ [(c.resultTx, .ok u)] } := by
          unfold AsyncShapedSys.taskStep; rw [ht]; rfl
        rw [ex]
        refine .inr ⟨js, { h with
          cover := fun _ hc => TaskPc.noConfusion hc
          task := ⟨ds ++ [d], sent ++ [c.payload], [], by simp [e1], ?_, fun _ _ hc => TaskPc.noConfusion hc,
            fun _ => ⟨rfl, ?_⟩⟩ }, .rfl _ _⟩
        · rw [e2, List.map_append, List.map_cons, List.map_nil, woven_snoc (by simp [e1]), List.append_nil]
        · simp [hq]
      | err e => exact hs.elim
      | panic =>
        refine .inl ?_
        unfold AsyncShapedSys.Broken AsyncShapedSys.taskStep
        rw [ht]; rfl
  | covering pc =>
    have hi := h.cover pc ht
    obtain ⟨hcur, hq⟩ := e4 (by rw [ht]; exact fun _ _ h => TaskPc.noConfusion h)
    by_cases hn : ∀ r, pc ≠ .done r
    · have ex : s.taskStep P prof = { s with
          ws := (pc.step .async P prof s.ws).1, task := .covering (pc.step .async P prof s.ws).2 } := by
        unfold AsyncShapedSys.taskStep; rw [ht]
        cases pc <;> first | rfl | exact absurd rfl (hn _)
      rw [ex]
      obtain ⟨g1, g2, g3⟩ := JobPc.step_idle (P := P) (prof := prof) .async h.decoy hi
      refine .inr ⟨js, ⟨by rw [g1]; exact h.op, by rw [g2]; exact h.padding, by rw [g2]; exact h.decoy, ?_,
        ⟨ds, sent, cur, e1, e2, fun _ _ hc => TaskPc.noConfusion hc, fun _ => ⟨hcur, hq⟩⟩⟩, ?_⟩
      · intro pc' hc; cases hc; exact g3
      · simp only [g1]; exact .rfl _ _
    · have ⟨r, hr⟩ : ∃ r, pc = .done r := Classical.byContradiction fun c => hn fun r hr => c ⟨r, hr⟩
      subst hr
      cases r with
      | ok u =>
        have ex : s.taskStep P prof = { s with task := .select false false } := by
          unfold AsyncShapedSys.taskStep; rw [ht]; rfl
        rw [ex]
        exact .inr ⟨js, { h with
          cover := fun _ hc => TaskPc.noConfusion hc
          task := ⟨ds, sent, cur, e1, e2, fun _ _ hc => TaskPc.noConfusion hc, fun _ => ⟨hcur, hq⟩⟩ }, .rfl _ _⟩
      | err e => exact hi.elim
      | panic => exact hi.elim
  | _ =>
    have : s.taskStep P prof = s := by simp only [AsyncShapedSys.taskStep, ht]
    rw [this]; exact .inr ⟨js, h, .rfl _ _⟩

theorem AsyncShapedSys.Shown.step (hP : Lawful P) {s : AsyncShapedSys R} {js : List Nat} (h : s.Shown js)
    (l : AsyncLabel) :
    (s.step P prof l).Broken ∨ ∃ js', (s.step P prof l).Shown js' ∧
      Grew s.ws.writer.writer.out.length (s.step P prof l).ws.writer.writer.out.length js js' := by
  have same : ∀ s' : AsyncShapedSys R, s'.ws = s.ws → s'.task = s.task → s'.queue = s.queue → s'.called = s.called →
      s'.Broken ∨ ∃ js', s'.Shown js' ∧
        Grew s.ws.writer.writer.out.length s'.ws.writer.writer.out.length js js' := by
    intro s' h1 h2 h3 h4
    refine .inr ⟨js, ⟨by rw [h1]; exact h.op, by rw [h1]; exact h.padding, by rw [h1]; exact h.decoy,
      by rw [h2]; exact h.cover, by rw [h2, h3, h4]; exact h.task⟩, ?_⟩
    rw [h1]; exact .rfl _ _
  obtain ⟨ds, sent, cur, e1, e2, e3, e4⟩ := h.task
  cases l with
  | task => exact h.taskStep hP
  | read => exact same _ rfl rfl rfl rfl
  | cancel => simp only [AsyncShapedSys.step]; split <;> exact same _ rfl rfl rfl rfl
  | drop => simp only [AsyncShapedSys.step]; split <;> exact same _ rfl rfl rfl rfl
  | resume =>
    simp only [AsyncShapedSys.step]
    split
    · split
      · exact same _ rfl rfl rfl rfl
      · split <;> exact same _ rfl rfl rfl rfl
    · exact same _ rfl rfl rfl rfl
  | call p =>
    simp only [AsyncShapedSys.step]
    split
    · split
      · exact same _ rfl rfl rfl rfl
      · refine .inr ⟨js, { h with task := ⟨ds, sent, cur, e1, e2, ?_, ?_⟩ }, .rfl _ _⟩
        · intro c pc hc
          obtain ⟨q1, q2⟩ := e3 c pc hc
          exact ⟨by simp [q1], q2⟩
        · intro hn
          obtain ⟨q1, q2⟩ := e4 hn
          exact ⟨q1, by simp [q2]⟩
    · exact same _ rfl rfl rfl rfl
  | recv =>
    simp only [AsyncShapedSys.step]
    split
    · rename_i t ht
      obtain ⟨hcur, hq⟩ := e4 (by rw [ht]; exact fun _ _ h => TaskPc.noConfusion h)
      split
      · rename_i c q hcq
        subst hcur
        refine .inr ⟨js, { h with cover := fun _ hc => TaskPc.noConfusion hc
                                  task := ⟨ds, sent, [], e1, e2, ?_, ?_⟩ }, .rfl _ _⟩
        · intro c' pc hc
          cases hc
          refine ⟨?_, rfl, rfl⟩
          simp [hq, hcq]
        · intro hn; exact absurd rfl (hn _ _)
      · rename_i hcq
        split
        · refine .inr ⟨js, { h with cover := fun _ hc => TaskPc.noConfusion hc
                                    task := ⟨ds, sent, cur, e1, e2, ?_, fun _ => ⟨hcur, ?_⟩⟩ }, .rfl _ _⟩
          · intro c' pc hc; cases hc
          · exact hq
        · exact same _ rfl rfl rfl rfl
    · exact same _ rfl rfl rfl rfl
  | tick =>
    simp only [AsyncShapedSys.step]
    split
    · rename_i t ht
      obtain ⟨hcur, hq⟩ := e4 (by rw [ht]; exact fun _ _ h => TaskPc.noConfusion h)
      refine .inr ⟨js, { h with cover := ?_, task := ⟨ds, sent, cur, e1, e2, ?_, fun _ => ⟨hcur, hq⟩⟩ }, .rfl _ _⟩
      · intro pc hc; cases hc; trivial
      · intro c' pc hc; cases hc
    · exact same _ rfl rfl rfl rfl
  | otherwise =>
    simp only [AsyncShapedSys.step]
    split
    · rename_i ht
      obtain ⟨hcur, hq⟩ := e4 (by rw [ht]; exact fun _ _ h => TaskPc.noConfusion h)
      refine .inr ⟨js, { h with cover := fun _ hc => TaskPc.noConfusion hc
                                task := ⟨ds, sent, cur, e1, e2, ?_, fun _ => ⟨hcur, hq⟩⟩ }, .rfl _ _⟩
      intro c' pc hc; cases hc
    · exact same _ rfl rfl rfl rfl

theorem AsyncShapedSys.trace_head (s : AsyncShapedSys R) (ls : List AsyncLabel) :
    ∃ t, s.trace P prof ls = s.ws.writer.writer.out.length :: t := by
  cases ls <;> exact ⟨_, rfl⟩

theorem AsyncShapedSys.Shown.run (hP : Lawful P) (ls : List AsyncLabel) {s : AsyncShapedSys R} {js : List Nat}
    (h : s.Shown js) (hb : ¬ (s.run P prof ls).Broken) :
    (s.run P prof ls).Shown (js ++ jumps (s.trace P prof ls)) := by
  induction ls generalizing s js with
  | nil => simpa [jumps, AsyncShapedSys.trace, AsyncShapedSys.run] using h
  | cons l ls ih =>
    rcases h.step (P := P) (prof := prof) hP l with hb' | ⟨js', h1, h2⟩
    · exact absurd (AsyncShapedSys.Broken.run (P := P) (prof := prof) hb' ls) hb
    · have := ih h1 hb
      obtain ⟨t, ht⟩ := AsyncShapedSys.trace_head (P := P) (prof := prof) (s.step P prof l) ls
      show ((s.step P prof l).run P prof ls).Shown
        (js ++ jumps (s.ws.writer.writer.out.length :: (s.step P prof l).trace P prof ls))
      rw [ht] at this ⊢
      rw [← jumps_grew h2]
      exact this

/-- **C58** (task; the size is not hidden).  The same for the task: when it waits in `select!` with an empty queue,
every second step of the wire is the length of a payload plus 20, for all payloads accepted so far, cancelled or
not. -/
theorem C58_task_seen (hP : Lawful P) {p : AsyncProtocol} {sh : Shaper R} (rec : List Nat)
    (h : PaddedOnly p.writer sh) (ls : List AsyncLabel) :
    let s := AsyncShapedSys.init p sh rec
    (∃ a b, (s.run P prof ls).task = .select a b) → (s.run P prof ls).queue = [] →
    ∃ ds, ds.length = (s.run P prof ls).called.length ∧
      jumps (s.trace P prof ls) = woven ds ((s.run P prof ls).called.map Payload.size) := by
  intro s hsel hqueue
  obtain ⟨a, b, hsel⟩ := hsel
  have h0 : s.Shown [] := ⟨⟨h.script, h.flushes⟩, h.padding, h.decoy, fun _ hc => TaskPc.noConfusion hc,
    [], [], [], rfl, rfl, fun _ _ h => TaskPc.noConfusion h, fun _ => ⟨rfl, rfl⟩⟩
  have hb : ¬ (s.run P prof ls).Broken := by
    unfold AsyncShapedSys.Broken; rw [hsel]; exact fun h => TaskPc.noConfusion h
  obtain ⟨ds, sent, cur, e1, e2, -, e4⟩ := (h0.run hP ls hb).task
  obtain ⟨hcur, hq⟩ := e4 (by rw [hsel]; exact fun _ _ h => TaskPc.noConfusion h)
  rw [hqueue] at hq
  simp only [List.map_nil, List.append_nil] at hq
  subst hcur
  rw [hq]
  exact ⟨ds, e1, by simpa using e2⟩

/-- **C58** (task; the README's claim is false). -/
theorem C58_task_counterexample (hP : Lawful P) (hP' : Lawful P') {p p' : AsyncProtocol} {sh : Shaper R}
    {sh' : Shaper R'} (rec rec' : List Nat) (h : PaddedOnly p.writer sh) (h' : PaddedOnly p'.writer sh')
    (ls ls' : List AsyncLabel) :
    let s := AsyncShapedSys.init p sh rec
    let s' := AsyncShapedSys.init p' sh' rec'
    (∃ a b, (s.run P prof ls).task = .select a b) → (s.run P prof ls).queue = [] →
    (∃ a b, (s'.run P' prof ls').task = .select a b) → (s'.run P' prof ls').queue = [] →
    jumps (s.trace P prof ls) = jumps (s'.trace P' prof ls') →
    (s.run P prof ls).called.map Payload.size = (s'.run P' prof ls').called.map Payload.size := by
  intro s s' i1 o1 i2 o2 hj
  obtain ⟨ds, l1, e1⟩ := C58_task_seen hP rec h ls i1 o1
  obtain ⟨es, l2, e2⟩ := C58_task_seen hP' rec' h' ls' i2 o2
  refine woven_inj (ds := ds) (es := es) (by simpa using l1) (by simpa using l2) ?_
  rw [← e1, ← e2]; exact hj

/-! ## Concrete cases -/

/-- A session with padding only. -/
def paddedSys : ShapedSys listRng :=
  .init ⟨⟨sampleIn, ⟨[], false, []⟩⟩, ⟨sampleOut, ⟨[], [], [9]⟩⟩⟩ ⟨⟨.random, .disabled⟩, [2, 5, 1]⟩ []

/-- Two writes, with the decoy thread in between. -/
def paddedSchedule : List SysLabel :=
  [.call (.genuine [1, 2, 3]), .app, .bg, .bg, .bg] ++ List.replicate 12 .app ++ List.replicate 5 .bg ++
    [.call (.genuine [7]), .app, .bg] ++ List.replicate 12 .app

example : PaddedOnly (R := listRng) ⟨sampleOut, ⟨[], [], [9]⟩⟩ ⟨⟨.random, .disabled⟩, [2, 5, 1]⟩ ∧
    (paddedSys.run toy .debug paddedSchedule).app = .idle ∧
    (∀ x ∈ (paddedSys.run toy .debug paddedSchedule).returned, x.2 = .ok ()) ∧
    (paddedSys.run toy .debug paddedSchedule).returned.map (·.1.size) = [3, 1] ∧
    jumps (paddedSys.trace toy .debug paddedSchedule) = woven [2, 5] [3, 1] :=
  ⟨⟨rfl, rfl, rfl, rfl⟩, by decide +kernel, by decide +kernel, by decide +kernel, by decide +kernel⟩

/-- **C58** (order).  The decoy does not follow the genuine packet but precedes it: after this write the peer reads a
decoy first and the genuine packet last. -/
theorem C58_order_counterexample :
    let ws : WriterState listRng := ⟨⟨sampleOut, ⟨[], [], []⟩⟩, ⟨⟨.random, .disabled⟩, [2]⟩, []⟩
    (ws.write .sync toy .debug (.genuine [1, 2, 3])).2 = .ok () ∧
    ((SyncReader.readMany toy .debug ⟨sampleIn, ⟨[], true,
      [.data (ws.write .sync toy .debug (.genuine [1, 2, 3])).1.writer.writer.out]⟩⟩ 2).2).map seen =
        [some (.decoy, [0, 0]), some (.genuine, [1, 2, 3])] := by
  decide +kernel

example : ∃ ws', WriterState.write (R := listRng) .async toy .debug
    ⟨⟨sampleOut, ⟨[], [], []⟩⟩, ⟨⟨.random, .disabled⟩, [2]⟩, []⟩ (.genuine [1, 2, 3]) = (ws', .ok ()) ∧
    ws'.writer.writer.out.length = 45 :=
  ⟨_, rfl, by decide +kernel⟩

example :
    (WriterState.write (R := constRng 3) .sync toy .debug
      ⟨⟨sampleOut, ⟨[], [], []⟩⟩, ⟨⟨.random, .disabled⟩, ()⟩, []⟩ (.genuine [1])).2 = .ok () ∧
    (WriterState.write (R := constRng 1) .sync toy .debug
      ⟨⟨sampleOut, ⟨[], [], []⟩⟩, ⟨⟨.random, .disabled⟩, ()⟩, []⟩ (.genuine [1, 2, 3])).2 = .ok () := by
  decide +kernel

example : ((AsyncShapedSys.init (R := listRng) ⟨⟨sampleIn, ⟨[], 0, []⟩, .initReadingLength⟩,
      ⟨sampleOut, ⟨[], [], []⟩⟩⟩ ⟨⟨.random, .disabled⟩, [2, 5]⟩ []).run toy .debug
      ([.call (.genuine [1, 2]), .cancel, .call (.genuine [3]), .recv] ++ List.replicate 12 .task ++
        [.tick, .task, .task, .recv] ++ List.replicate 12 .task)).task = .select false false ∧
    jumps ((AsyncShapedSys.init (R := listRng) ⟨⟨sampleIn, ⟨[], 0, []⟩, .initReadingLength⟩,
      ⟨sampleOut, ⟨[], [], []⟩⟩⟩ ⟨⟨.random, .disabled⟩, [2, 5]⟩ []).trace toy .debug
      ([.call (.genuine [1, 2]), .cancel, .call (.genuine [3]), .recv] ++ List.replicate 12 .task ++
        [.tick, .task, .task, .recv] ++ List.replicate 12 .task)) = woven [2, 5] [2, 1] := by
  decide +kernel

end Bip324
