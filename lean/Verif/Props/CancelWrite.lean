import Verif.Lemmas.Traffic
import Verif.Props.Attacker

/-!
# C50: cancelling an asynchronous write

`ProtocolWriter::write` (futures.rs:477-491) may be dropped at any `.await`: in `write_all` or in `flush`.
`WProc` has a step for the encryption, for each poll of the transport and for `flush`, so that a write dropped
after any number of steps covers all of these (and more).  The lemmas are for both APIs: a blocking write cannot be
dropped, but the process may end while it is in progress.
-/

namespace Bip324

variable {P : Prims} {prof : Profile} {f : Flavour}

/-- The write goes on for that many steps. -/
def WProc.steps (f : Flavour) (P : Prims) (prof : Profile) : Nat → Writer × WProc → Writer × WProc
  | 0, x => x
  | k + 1, x => WProc.steps f P prof k (x.2.step f P prof x.1)

/-- A call of `write` whose future is dropped after that many steps, if it has not returned before. -/
structure WriteCall where
  payload : Payload
  steps : Nat
deriving Repr, DecidableEq

/-- Calls one after the other; where each of them stopped. -/
def Writer.runCalls (f : Flavour) (P : Prims) (prof : Profile) : Writer → List WriteCall → Writer × List WProc
  | w, [] => (w, [])
  | w, c :: cs =>
    match WProc.steps f P prof c.steps (w, .start c.payload) with
    | (w1, pc) =>
      match Writer.runCalls f P prof w1 cs with
      | (w2, pcs) => (w2, pc :: pcs)

/-- The payloads of the calls that were polled at all. -/
def started (cs : List WriteCall) : List Payload := (cs.filter (fun c => c.steps != 0)).map (·.payload)

/-- The whole packet has been taken by the transport. -/
def WProc.AllTaken : WProc → Prop
  | .sending rest => rest = []
  | .flushing => True
  | .done r => r = .ok ()
  | .start _ => False

/-- After the encryption of a packet, with the transport's `out` before the call. -/
def WProc.After (pkt out : Bytes) (o : OutboundCipher) (w : Writer) (pc : WProc) : Prop :=
  w.cipher = o ∧ ∃ taken, w.writer.out = out ++ taken ∧
    match pc with
    | .start _ => False
    | .sending rest => pkt = taken ++ rest
    | .flushing => pkt = taken
    | .done (.ok ()) => pkt = taken
    | .done (.err e) => taken <+: pkt ∧ ∃ k, e = .fromIo k
    | .done .panic => False

theorem WProc.After.step {pkt out : Bytes} {o : OutboundCipher} {w : Writer} {pc : WProc}
    (h : pc.After pkt out o w) :
    (pc.step f P prof w).2.After pkt out o (pc.step f P prof w).1 := by
  obtain ⟨hc, taken, ho, h⟩ := h
  cases pc with
  | start p => exact h.elim
  | sending rest =>
    simp only at h
    cases rest with
    | nil =>
      rw [List.append_nil] at h
      exact ⟨hc, taken, ho, h⟩
    | cons b bs =>
      obtain ⟨c, script, flushes, out'⟩ := w
      simp only at ho hc
      cases script with
      | nil =>
        refine ⟨hc, taken ++ (b :: bs), ?_, ?_⟩
        · simp only [WProc.step, ho, List.append_assoc]
        · simp only [WProc.step, h, List.append_nil]
      | cons e s =>
        cases e with
        | pending => exact ⟨hc, taken, ho, h⟩
        | fail k =>
          simp only [WProc.step]
          split
          · exact ⟨hc, taken, ho, h⟩
          · exact ⟨hc, taken, ho, ⟨b :: bs, h.symm⟩, k, rfl⟩
        | accept n =>
          cases n with
          | zero => exact ⟨hc, taken, ho, ⟨b :: bs, h.symm⟩, .writeZero, rfl⟩
          | succ n =>
            refine ⟨hc, taken ++ (b :: bs).take (n + 1), ?_, ?_⟩
            · simp only [WProc.step, ho, List.append_assoc]
            · simp only [WProc.step, h, List.append_assoc, List.take_append_drop]
  | flushing =>
    obtain ⟨c, script, flushes, out'⟩ := w
    simp only at h ho hc
    cases flushes with
    | nil => exact ⟨hc, taken, ho, h⟩
    | cons f fs =>
      cases f with
      | none => exact ⟨hc, taken, ho, h⟩
      | some k => exact ⟨hc, taken, ho, ⟨[], by rw [List.append_nil, h]⟩, k, rfl⟩
  | done r => exact ⟨hc, taken, ho, h⟩

theorem WProc.After.steps {pkt out : Bytes} {o : OutboundCipher} (k : Nat) : ∀ {w : Writer} {pc : WProc},
    pc.After pkt out o w →
    (WProc.steps f P prof k (w, pc)).2.After pkt out o (WProc.steps f P prof k (w, pc)).1 := by
  induction k with
  | zero => intro w pc h; exact h
  | succ k ih => intro w pc h; exact ih h.step

/-- The first step encrypts. -/
theorem start_after {w : Writer} {p : Payload} {t : PacketType} {c : Bytes} (hv : p.view = some (t, c))
    {o : OutboundCipher} {pkt : Bytes} (he : w.cipher.encryptToVec P prof c t none = (o, .ok pkt)) (k : Nat) :
    (WProc.steps f P prof (k + 1) (w, .start p)).2.After pkt w.writer.out o
      (WProc.steps f P prof (k + 1) (w, .start p)).1 := by
  rw [Payload.view_some] at hv
  have : WProc.step f P prof w (.start p) = ({ w with cipher := o }, .sending pkt) := by
    simp only [WProc.step, hv.1, hv.2, he]
  show (WProc.steps f P prof k (WProc.step f P prof w (.start p))).2.After pkt w.writer.out o
      (WProc.steps f P prof k (WProc.step f P prof w (.start p))).1
  rw [this]
  exact WProc.After.steps k ⟨rfl, [], by simp, rfl⟩

/-- C50: one cancelled call.  If it was never polled, nothing has happened.  Otherwise the outbound cipher has
moved on to the next packet number, and a prefix of the call's packet has been handed to the transport and
nothing else: all of it, unless the call stopped in `write_all` or failed there. -/
theorem C50_one {w w' : Writer} {p : Payload} {t : PacketType} {c : Bytes} (hv : p.view = some (t, c))
    {o : OutboundCipher} {pkt : Bytes} (he : w.cipher.encryptToVec P prof c t none = (o, .ok pkt)) {k : Nat}
    {pc : WProc} (hs : WProc.steps f P prof k (w, .start p) = (w', pc)) :
    (k = 0 ∧ w' = w) ∨
    (k ≠ 0 ∧ w'.cipher = o ∧ ∃ piece, w'.writer.out = w.writer.out ++ piece ∧ piece <+: pkt ∧
      (pc.AllTaken → piece = pkt) ∧ ∀ rest, pc = .sending rest → pkt = piece ++ rest) := by
  cases k with
  | zero =>
    simp only [WProc.steps, Prod.mk.injEq] at hs
    exact .inl ⟨rfl, hs.1.symm⟩
  | succ k =>
    have h := start_after (prof := prof) (f := f) hv he k
    rw [hs] at h
    obtain ⟨hc, taken, ho, h⟩ := h
    refine .inr ⟨by omega, hc, taken, ho, ?_⟩
    cases pc with
    | start p => exact h.elim
    | sending rest =>
      simp only at h
      refine ⟨⟨rest, h.symm⟩, fun ha => ?_, fun r hr => ?_⟩
      · rw [h, show rest = [] from ha, List.append_nil]
      · cases hr; exact h
    | flushing => exact ⟨⟨[], by rw [List.append_nil]; exact h.symm⟩, fun _ => h.symm, by simp⟩
    | done r =>
      cases r with
      | ok u => exact ⟨⟨[], by rw [List.append_nil]; exact h.symm⟩, fun _ => h.symm, by simp⟩
      | err e => exact ⟨h.1, fun (ha : _ = _) => (by cases ha), by simp⟩
      | panic => exact h.elim

/-- C50: a call that is polled often enough returns, and does exactly what the uninterrupted `write` does. -/
theorem C50_driven (w : Writer) (p : Payload) : ∃ k0, ∀ k, k0 ≤ k →
    WProc.steps f P prof k (w, .start p) = ((w.write f P prof p).1, .done (w.write f P prof p).2) := by
  have ends : ∀ (n : Nat) (x : Writer × WProc), (∀ q, x.2 ≠ .start q) → x.2.rank x.1 ≤ n →
      ∃ r, (WProc.steps f P prof n x).2 = .done r := by
    intro n
    induction n with
    | zero =>
      intro x hx hr
      cases hp : x.2 with
      | start q => exact absurd hp (hx q)
      | sending rest => rw [hp] at hr; simp [WProc.rank] at hr
      | flushing => rw [hp] at hr; simp [WProc.rank] at hr
      | done r => exact ⟨r, hp⟩
    | succ n ih =>
      intro x hx hr
      by_cases hd : ∃ r, x.2 = .done r
      · obtain ⟨r, hd⟩ := hd
        refine ih _ ?_ ?_
        · rw [hd]; intro q; simp [WProc.step]
        · rw [hd]; simp [WProc.step, WProc.rank]
      · have := WProc.step_rank (P := P) (prof := prof) f x.1 x.2 hx (fun r h => hd ⟨r, h⟩)
        exact ih _ this.2 (by omega)
  have fin : ∀ (n : Nat) (x : Writer × WProc),
      (WProc.steps f P prof n x).2.finish f P prof (WProc.steps f P prof n x).1 = x.2.finish f P prof x.1 := by
    intro n
    induction n with
    | zero => intro x; rfl
    | succ n ih => intro x; rw [show WProc.steps f P prof (n + 1) x = WProc.steps f P prof n (x.2.step f P prof x.1) from rfl, ih, WProc.step_finish]
  have stay : ∀ (n : Nat) (w : Writer) (r : Outcome ProtocolError Unit),
      WProc.steps f P prof n (w, .done r) = (w, .done r) := by
    intro n
    induction n with
    | zero => intros; rfl
    | succ n ih => intro w r; exact ih w r
  have add : ∀ (a b : Nat) (x : Writer × WProc),
      WProc.steps f P prof (a + b) x = WProc.steps f P prof b (WProc.steps f P prof a x) := by
    intro a
    induction a with
    | zero => intro b x; rw [Nat.zero_add]; rfl
    | succ a ih => intro b x; rw [show a + 1 + b = (a + b) + 1 by omega]; exact ih b _
  have hne : ∀ q, (WProc.step f P prof w (.start p)).2 ≠ .start q := by
    intro q
    simp only [WProc.step]
    split
    · split <;> simp
    · simp
  obtain ⟨r, hr⟩ := ends _ _ hne (Nat.le_refl _)
  refine ⟨(WProc.step f P prof w (.start p)).2.rank (WProc.step f P prof w (.start p)).1 + 1, fun k hk => ?_⟩
  generalize hN : (WProc.step f P prof w (.start p)).2.rank (WProc.step f P prof w (.start p)).1 = N at *
  have h1 : (WProc.steps f P prof (N + 1) (w, .start p)).2 = .done r := hr
  have h2 := fin (N + 1) (w, .start p)
  rw [h1] at h2
  have h3 : (WProc.steps f P prof (N + 1) (w, .start p)).1 = (w.write f P prof p).1 ∧ r = (w.write f P prof p).2 := by
    have h2' : ((WProc.steps f P prof (N + 1) (w, .start p)).1, r) = w.write f P prof p := h2
    rw [← h2']
    exact ⟨rfl, rfl⟩
  have h4 : WProc.steps f P prof (N + 1) (w, .start p)
      = ((w.write f P prof p).1, .done (w.write f P prof p).2) := by
    rw [← h3.1, ← h3.2, ← h1]
  rw [show k = (N + 1) + (k - (N + 1)) by omega, add, h4, stay]

/-- C50: the whole history of a writer with calls cancelled at arbitrary points.  Each call that was polled uses
one packet number, in order, and puts a prefix of its packet on the wire; calls that were not polled leave no
trace.  So no packet number is ever used for two payloads, whatever is cancelled. -/
theorem C50_history (hP : Lawful P) {kL kP : Bytes} (cs : List WriteCall) : ∀ {n : Nat} {w w' : Writer}
    {pcs : List WProc}, w.cipher.At P kL kP n → n + cs.length < 2 ^ 32 →
    (∀ c ∈ cs, ∃ t d, c.payload.view = some (t, d)) → w.runCalls f P prof cs = (w', pcs) →
    ∃ pieces : List Bytes, pieces.length = cs.length ∧ pcs.length = cs.length ∧
      w'.writer.out = w.writer.out ++ pieces.flatten ∧
      w'.cipher.At P kL kP (n + (started cs).length) ∧
      ∀ i c t d, cs[i]? = some c → c.payload.view = some (t, d) →
        ∃ piece pc, pieces[i]? = some piece ∧ pcs[i]? = some pc ∧
          (c.steps = 0 → piece = []) ∧
          (c.steps ≠ 0 → piece <+: Spec.packet P kL kP (n + (started (cs.take i)).length) (t == .decoy) [] d ∧
            (pc.AllTaken → piece = Spec.packet P kL kP (n + (started (cs.take i)).length) (t == .decoy) [] d)) := by
  induction cs with
  | nil =>
    intro n w w' pcs hat hn hv hr
    simp only [Writer.runCalls, Prod.mk.injEq] at hr
    obtain ⟨rfl, rfl⟩ := hr
    exact ⟨[], rfl, rfl, by simp, hat, by simp⟩
  | cons c cs ih =>
    intro n w w' pcs hat hn hv hr
    rw [List.length_cons] at hn
    unfold Writer.runCalls at hr
    cases h1 : WProc.steps f P prof c.steps (w, .start c.payload) with
    | mk w1 pc =>
    cases h2 : w1.runCalls f P prof cs with
    | mk w2 pcs2 =>
    simp only [h1, h2, Prod.mk.injEq] at hr
    obtain ⟨rfl, rfl⟩ := hr
    obtain ⟨t, d, hview⟩ := hv c (by simp)
    obtain ⟨o', hat', he⟩ := OutboundCipher.At.encryptToVec (prof := prof) hP hat (by omega) d t none
    have hv' : ∀ c ∈ cs, ∃ t d, c.payload.view = some (t, d) := fun q hq => hv q (by simp [hq])
    have one := C50_one (prof := prof) hview he h1
    by_cases hz : c.steps = 0
    · have hw : w1 = w := by
        rcases one with h | h
        · exact h.2
        · exact absurd hz h.1
      subst hw
      have hst : ∀ l, started (c :: l) = started l := by
        intro l; simp [started, hz]
      obtain ⟨pieces, g1, g2, g3, g4, g5⟩ := ih hat (by omega) hv' h2
      refine ⟨[] :: pieces, by simp [g1], by simp [g2], by simpa using g3, by rw [hst]; exact g4, ?_⟩
      intro i q t' d' hq hqv
      cases i with
      | zero =>
        simp only [List.getElem?_cons_zero, Option.some.injEq] at hq
        subst hq
        exact ⟨[], pc, rfl, rfl, fun _ => rfl, fun h => absurd hz h⟩
      | succ i =>
        simp only [List.getElem?_cons_succ] at hq ⊢
        rw [List.take_succ_cons, hst]
        exact g5 i q t' d' hq hqv
    · obtain ⟨hc1, piece, ho, hpre, hall, -⟩ : w1.cipher = o' ∧ ∃ piece, w1.writer.out = w.writer.out ++ piece ∧
          piece <+: Spec.packet P kL kP n (t == .decoy) ((none : Option Bytes).getD []) d ∧
          (pc.AllTaken → piece = Spec.packet P kL kP n (t == .decoy) ((none : Option Bytes).getD []) d) ∧
          ∀ rest, pc = .sending rest →
            Spec.packet P kL kP n (t == .decoy) ((none : Option Bytes).getD []) d = piece ++ rest := by
        rcases one with h | h
        · exact absurd h.1 hz
        · exact h.2
      have hst : ∀ l, (started (c :: l)).length = (started l).length + 1 := by
        intro l; simp [started, hz]
      rw [← hc1] at hat'
      obtain ⟨pieces, g1, g2, g3, g4, g5⟩ := ih hat' (by omega) hv' h2
      refine ⟨piece :: pieces, by simp [g1], by simp [g2], by rw [g3, ho]; simp, ?_, ?_⟩
      · rw [hst, show n + ((started cs).length + 1) = n + 1 + (started cs).length by omega]; exact g4
      · intro i q t' d' hq hqv
        cases i with
        | zero =>
          simp only [List.getElem?_cons_zero, Option.some.injEq] at hq
          subst hq
          rw [hview] at hqv
          cases hqv
          exact ⟨piece, pc, rfl, rfl, fun h => absurd h hz, fun _ => ⟨hpre, hall⟩⟩
        | succ i =>
          simp only [List.getElem?_cons_succ] at hq ⊢
          rw [List.take_succ_cons, hst,
            show n + ((started (cs.take i)).length + 1) = n + 1 + (started (cs.take i)).length by omega]
          exact g5 i q t' d' hq hqv

theorem step_out (pc : WProc) (w : Writer) :
    w.writer.out <+: (pc.step f P prof w).1.writer.out := by
  cases pc with
  | start p =>
    simp only [WProc.step]
    split
    · split <;> exact List.prefix_rfl
    · exact List.prefix_rfl
  | sending rest =>
    cases rest with
    | nil => exact List.prefix_rfl
    | cons b bs =>
      obtain ⟨c, script, flushes, out⟩ := w
      cases script with
      | nil => exact List.prefix_append _ _
      | cons e s =>
        cases e with
        | pending => exact List.prefix_rfl
        | fail k =>
          simp only [WProc.step]
          split <;> exact List.prefix_rfl
        | accept n =>
          cases n with
          | zero => exact List.prefix_rfl
          | succ n => exact List.prefix_append _ _
  | flushing =>
    obtain ⟨c, script, flushes, out⟩ := w
    cases flushes with
    | nil => exact List.prefix_rfl
    | cons f fs => cases f <;> exact List.prefix_rfl
  | done r => exact List.prefix_rfl

theorem steps_out (k : Nat) : ∀ x : Writer × WProc, x.1.writer.out <+: (WProc.steps f P prof k x).1.writer.out := by
  induction k with
  | zero => intro x; exact List.prefix_rfl
  | succ k ih =>
    intro x
    refine List.IsPrefix.trans ?_ (ih _)
    obtain ⟨w, pc⟩ := x
    exact step_out pc w

theorem runCalls_out (cs : List WriteCall) : ∀ w : Writer, w.writer.out <+: (w.runCalls f P prof cs).1.writer.out := by
  induction cs with
  | nil => intro w; exact List.prefix_rfl
  | cons c cs ih =>
    intro w
    exact (steps_out (P := P) (prof := prof) c.steps (w, .start c.payload)).trans (ih _)

theorem runCalls_sent (cs : List WriteCall) : ∀ {w w' : Writer} {pcs : List WProc} {sent : Bytes},
    w.runCalls f P prof cs = (w', pcs) → (∀ x ∈ cs.zip pcs, x.1.steps ≠ 0 → x.2.AllTaken) →
    w'.writer.out = w.writer.out ++ sent → Sent P prof w.cipher (started cs) w'.cipher sent := by
  induction cs with
  | nil =>
    intro w w' pcs sent hr _ ho
    simp only [Writer.runCalls, Prod.mk.injEq] at hr
    obtain ⟨rfl, rfl⟩ := hr
    have : sent = [] := by simpa using ho
    subst this
    exact .nil _
  | cons c cs ih =>
    intro w w' pcs sent hr hall ho
    unfold Writer.runCalls at hr
    cases h1 : WProc.steps f P prof c.steps (w, .start c.payload) with
    | mk w1 pc =>
    cases h2 : w1.runCalls f P prof cs with
    | mk w2 pcs2 =>
    simp only [h1, h2, Prod.mk.injEq] at hr
    obtain ⟨rfl, rfl⟩ := hr
    have hrest : ∀ x ∈ cs.zip pcs2, x.1.steps ≠ 0 → x.2.AllTaken := fun x hx => hall x (by simp [hx])
    cases hk : c.steps with
    | zero =>
      have hst : started (c :: cs) = started cs := by simp [started, hk]
      rw [hk] at h1
      simp only [WProc.steps, Prod.mk.injEq] at h1
      obtain ⟨rfl, -⟩ := h1
      rw [hst]
      exact ih h2 hrest ho
    | succ k =>
      have hst : started (c :: cs) = c.payload :: started cs := by simp [started, hk]
      have ht : pc.AllTaken := hall (c, pc) (by simp) (by simp [hk])
      have hdone : ∀ (n : Nat) (w : Writer) (r : Outcome ProtocolError Unit),
          WProc.steps f P prof n (w, .done r) = (w, .done r) := by
        intro n
        induction n with
        | zero => intros; rfl
        | succ n ih => intro w r; exact ih w r
      cases hv : c.payload.view with
      | none =>
        have : WProc.step f P prof w (.start c.payload) = (w, .done .panic) := by
          unfold Payload.view at hv
          simp only [WProc.step]
          cases h1 : c.payload.packetType <;> cases h2 : c.payload.contents <;> simp_all
        rw [hk] at h1
        simp only [WProc.steps, this, hdone, Prod.mk.injEq] at h1
        rw [← h1.2] at ht
        cases ht
      | some v =>
        obtain ⟨t, d⟩ := v
        cases he : w.cipher.encryptToVec P prof d t none with
        | mk o x =>
        cases x with
        | ok pkt =>
          rw [hk] at h1
          have h3 := start_after (prof := prof) (f := f) hv he k
          rw [h1] at h3
          obtain ⟨hc, taken, ho1, h3⟩ := h3
          have htaken : pkt = taken := by
            cases pc with
            | start p => exact h3.elim
            | sending rest =>
              have h3' : pkt = taken ++ rest := h3
              rw [show rest = [] from ht, List.append_nil] at h3'
              exact h3'
            | flushing => exact h3
            | done r => rw [show r = .ok () from ht] at h3; exact h3
          subst htaken
          obtain ⟨more, hmore⟩ : ∃ more, sent = pkt ++ more := by
            have hp : w1.writer.out <+: w2.writer.out := by
              have := runCalls_out (P := P) (prof := prof) (f := f) cs w1
              rw [h2] at this
              exact this
            obtain ⟨more, hm⟩ := hp
            rw [ho1, ho, List.append_assoc] at hm
            exact ⟨more, (List.append_cancel_left hm).symm⟩
          subst hmore
          rw [hst]
          refine .cons hv he ?_
          rw [← hc]
          exact ih h2 hrest (by rw [ho, ho1, List.append_assoc])
        | err e =>
          exfalso
          unfold OutboundCipher.encryptToVec at he
          split at he <;> simp at he
        | panic =>
          rw [Payload.view_some] at hv
          have : WProc.step f P prof w (.start c.payload) = ({ w with cipher := o }, .done .panic) := by
            simp only [WProc.step, hv.1, hv.2, he]
          rw [hk] at h1
          simp only [WProc.steps, this, hdone, Prod.mk.injEq] at h1
          rw [← h1.2] at ht
          cases ht

/-- C50, the safe case: if every call that was polled has had its whole packet taken (it returned `Ok`, or it was
cancelled in `flush`), then the peer's reads return the payloads of all these calls, the cancelled ones
included, and nothing is lost. -/
theorem C50_safe (hP : Lawful P) {cs : List WriteCall} {w w' : Writer} {pcs : List WProc} {sent more : Bytes}
    (hr : w.runCalls f P prof cs = (w', pcs)) (hall : ∀ x ∈ cs.zip pcs, x.1.steps ≠ 0 → x.2.AllTaken)
    (ho : w'.writer.out = w.writer.out ++ sent)
    (hsize : ∀ p ∈ started cs, ∀ c, p.contents = some c → c.length ≤ 4000013)
    {r : SyncReader} (hm : Matching w.cipher r.cipher) {tail : Source} {k : ErrorKind} (hend : EndsWith true tail k)
    (hs : SyncStreams r.reader (sent ++ more) tail) :
    ∃ r' outs, r.readMany P prof (started cs).length = (r', outs) ∧
      outs.map seen = (started cs).map Payload.view ∧ (∀ x ∈ outs, ∃ p, x = .ok p) ∧
      Matching w'.cipher r'.cipher ∧ SyncStreams r'.reader more tail :=
  sync_delivers hP hend (runCalls_sent cs hr hall ho) hsize hm hs

/-- C50, the unsafe case: once a packet number is used up without its packet being on the stream (which is what
remains of a call cancelled inside `write_all`, see `C50_history`), the peer never returns any payload again,
however many packets follow and however often it reads. -/
theorem C50_lost_sync (hP : Lawful P) {kP : Bytes} {n k : Nat} {r r' : SyncReader}
    {xs : List (Outcome ProtocolError Payload)} (hat : r.cipher.packetCipher.At P kP n) (hn : n + k < 2 ^ 64)
    (hno : Spec.Unforged P kP n 1 [] r.reader.bytes) (hr : r.readMany P prof k = (r', xs)) :
    payloads xs = [] := by
  obtain ⟨ms, taken, h1, -, h2, h3, -⟩ := C46_sync_after_errors hP k hat hn hr
  cases ms with
  | nil => exact h1
  | cons m ms =>
    obtain ⟨before, after, he, -⟩ := h3
    have := carries_prefix hP kP [m] n 1 [] r.reader.bytes [] hno (by simp)
      ⟨before, after ++ r'.reader.bytes, by rw [h2, he]; simp only [List.append_assoc], trivial⟩
    simp at this

/-- C50, the unsafe case, for an asynchronous peer. -/
theorem C50_lost_async (hP : Lawful P) {kL kP : Bytes} {n : Nat} {r r' : AsyncReader} {es : List ReadEvent}
    {xs : List (Outcome ProtocolError Payload)} (hat : r.cipher.At P kL kP n) (hst : r.state = .initReadingLength)
    (hn : n + es.length < 2 ^ 32) (hno : Spec.Unforged P kP n 1 [] r.reader.remaining)
    (hr : r.run P prof es = (r', xs)) : payloads xs = [] := by
  obtain ⟨ms, rest, h1, -, -, h2, -⟩ := C46_async hP es (fresh_reads hat hst) hn hr
  cases ms with
  | nil => exact h1
  | cons m ms =>
    obtain ⟨before, after, he, -⟩ := carries_stream (P := P) kL kP (m :: ms) n rest
    have := carries_prefix hP kP [m] n 1 [] r.reader.remaining [] hno (by simp)
      ⟨before, after, by rw [h2, he], trivial⟩
    simp at this

/-! ## Non-vacuity -/

/-- The transport of the examples takes 7 bytes, is not ready, and then takes everything. -/
def sampleCancelSink : Sink := ⟨[.accept 7, .pending], [], []⟩

/-- A call cancelled while the transport is not ready, one that is not polled at all, and one that completes:
the last one has packet number 1, the wire has 7 bytes of the first packet and all of the
last, which was reported as sent, and a peer that reads this (from the same keys) gets nothing. -/
example :
    let x := Writer.runCalls .async toy .debug ⟨sampleOut, sampleCancelSink⟩
      [⟨.genuine [1, 2, 3], 3⟩, ⟨.genuine [4], 0⟩, ⟨.genuine [5, 6], 9⟩]
    let p0 := Spec.packet toy (leBytes 32 77) (leBytes 32 99) 0 false [] [1, 2, 3]
    let p1 := Spec.packet toy (leBytes 32 77) (leBytes 32 99) 1 false [] [5, 6]
    x.2 = [.sending (p0.drop 7), .start (.genuine [4]), .done (.ok ())] ∧
    x.1.writer.out = p0.take 7 ++ p1 ∧
    Spec.Unforged toy (leBytes 32 99) 0 1 [] x.1.writer.out ∧
    payloads (SyncReader.readMany toy .debug ⟨sampleIn, ⟨[], false, [.data x.1.writer.out]⟩⟩ 3).2 = [] :=
  ⟨by decide +kernel, by decide +kernel, unforged_of_check (by decide +kernel), by decide +kernel⟩

/-- A call cancelled in `flush`, and one that completes: both payloads arrive. -/
example :
    let cs : List WriteCall := [⟨.genuine [1, 2, 3], 5⟩, ⟨.decoy [5, 6], 9⟩]
    let x := Writer.runCalls .async toy .debug ⟨sampleOut, sampleCancelSink⟩ cs
    x.2 = [.flushing, .done (.ok ())] ∧ started cs = [.genuine [1, 2, 3], .decoy [5, 6]] ∧
    (SyncReader.readMany toy .debug ⟨sampleIn, ⟨[], false, [.data x.1.writer.out]⟩⟩ 2).2.map seen
      = [some (.genuine, [1, 2, 3]), some (.decoy, [5, 6])] := by
  decide +kernel

end Bip324
