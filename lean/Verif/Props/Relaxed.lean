import Verif.Model.Relaxed
import Verif.Props.Ratio
import Verif.Props.Shutdown

/-!
# C80: what is left without sequential consistency

The statistics and the shutdown flag are `Relaxed`.  The specification of such variables here: the modifications of
each variable have an order of their own, in which those of one thread are in program order and each `fetch_add` adds
to the value before it; a load gives the value at some place in this order, not before the thread's own last operation
on the variable.
-/

namespace Bip324

variable {P : Prims} {prof : Profile} {R : Rng}

/-! ## The memory -/

/-- The operations on one variable. -/
def onLoc (l : Loc) (ops : List AtomicOp) : List AtomicOp := ops.filter (fun op => decide (op.loc = l))

/-- Each variable has an order in which the operations of the threads on it took place. -/
def RelaxedExec (threads : List (List AtomicOp)) (mo : Loc → List AtomicOp) : Prop :=
  ∀ l, ∃ rest, Executes (threads.map (onLoc l)) (mo l) rest ∧ ∀ t ∈ rest, t = []

/-- Thread number `i`, which has done `j` operations, loads the variable `l`: it sees the modifications `p`. -/
def RelaxedLoad (threads : List (List AtomicOp)) (mo : Loc → List AtomicOp) (l : Loc) (i j : Nat)
    (p : List AtomicOp) : Prop :=
  p <+: mo l ∧ ∃ th rest left, threads[i]? = some th ∧ Executes (threads.map (onLoc l)) p rest ∧
    rest[i]? = some left ∧ left.length ≤ (onLoc l (th.drop j)).length

/-! ## Lemmas -/

theorem get_onLoc (l : Loc) (ops : List AtomicOp) (s s' : Stats) (h : s.get l = s'.get l) :
    (ops.foldl Stats.apply s).get l = ((onLoc l ops).foldl Stats.apply s').get l := by
  induction ops generalizing s s' with
  | nil => exact h
  | cons op ops ih =>
    by_cases hl : op.loc = l
    · simp only [onLoc, List.filter_cons, hl, decide_true, if_true, List.foldl_cons]
      refine ih _ _ ?_
      subst hl
      cases op <;> simp only [AtomicOp.loc, Stats.get] at h <;> simp [AtomicOp.loc, Stats.apply, Stats.get, h]
    · simp only [onLoc, List.filter_cons, hl, decide_false, List.foldl_cons, Bool.false_eq_true, if_false]
      refine ih _ _ ?_
      rw [← h]
      revert hl
      cases op <;> cases l <;> intro hl <;> first | rfl | exact absurd rfl hl

theorem Executes.unmap {α β : Type} (f : α → β) {ts : List (List α)} {us rest : List (List β)} {ops : List β}
    (h : Executes us ops rest) (hu : us = ts.map (List.map f)) :
    ∃ ops' rest', Executes ts ops' rest' ∧ ops = ops'.map f ∧ rest = rest'.map (List.map f) := by
  induction h generalizing ts with
  | stop us => exact ⟨[], ts, .stop ts, rfl, hu⟩
  | @step a b op t ops rest _ ih =>
    obtain ⟨a', c', rfl, ha, hc⟩ := List.map_eq_append_iff.1 hu.symm
    obtain ⟨t', b', rfl, ht, hb⟩ := List.map_eq_cons_iff.1 hc
    obtain ⟨x, t'', rfl, hx, ht⟩ := List.map_eq_cons_iff.1 ht
    obtain ⟨ops', rest', h1, h2, h3⟩ := ih (ts := a' ++ t'' :: b') (by simp [ha, hb, ht])
    exact ⟨x :: ops', rest', .step h1, by simp [hx, h2], h3⟩

theorem Executes.run_thread {α : Type} {a b : List (List α)} {t ops : List α} (l : List α) {rest : List (List α)}
    (h : Executes (a ++ t :: b) ops rest) : Executes (a ++ (l ++ t) :: b) (l ++ ops) rest := by
  induction l with
  | nil => exact h
  | cons x l ih => exact .step ih

theorem Executes.flatMap {α β : Type} (g : α → List β) {ts rest : List (List α)} {ops : List α}
    (h : Executes ts ops rest) :
    Executes (ts.map (List.flatMap g)) (ops.flatMap g) (rest.map (List.flatMap g)) := by
  induction h with
  | stop ts => exact .stop _
  | @step a b op t ops rest _ ih =>
    simp only [List.map_append, List.map_cons, List.flatMap_cons] at ih ⊢
    exact ih.run_thread _

theorem onLoc_last (th : List (RecordCall × Nat)) :
    onLoc .lastActivity (threadOps th) = th.map (fun c => AtomicOp.storeLastActivity c.2) := by
  induction th with
  | nil => rfl
  | cons c th ih =>
    have : threadOps (c :: th) = c.1.ops c.2 ++ threadOps th := rfl
    rw [this]
    unfold onLoc at ih ⊢
    rw [List.filter_append, ih]
    obtain ⟨c, now⟩ := c
    cases c <;> simp [RecordCall.ops, AtomicOp.loc]

/-- Operations elsewhere add nothing. -/
theorem total_onLoc {f : AtomicOp → Nat} {l : Loc} (hf : ∀ op, op.loc ≠ l → f op = 0) (ops : List AtomicOp) :
    total ((onLoc l ops).map f) = total (ops.map f) := by
  induction ops with
  | nil => rfl
  | cons op ops ih =>
    have tc : ∀ x l, total (x :: l) = x + total l := fun _ _ => rfl
    unfold onLoc at ih ⊢
    by_cases hl : op.loc = l
    · simp only [List.filter_cons, hl, decide_true, if_true, List.map_cons, tc, ih]
    · simp only [List.filter_cons, hl, decide_false, Bool.false_eq_true, if_false, List.map_cons, tc, ih, hf op hl,
        Nat.zero_add]

theorem total_onLoc_threads {f : AtomicOp → Nat} {l : Loc} (hf : ∀ op, op.loc ≠ l → f op = 0)
    (ts : List (List AtomicOp)) : total ((ts.map (onLoc l)).flatten.map f) = total (ts.flatten.map f) := by
  induction ts with
  | nil => rfl
  | cons t ts ih =>
    simp only [List.map_cons, List.flatten_cons, List.map_append, total_append, ih, total_onLoc hf]

theorem mo_total {f : AtomicOp → Nat} {l : Loc} (hf : ∀ op, op.loc ≠ l → f op = 0) {ts : List (List AtomicOp)}
    {mo : Loc → List AtomicOp} (h : RelaxedExec ts mo) : total ((mo l).map f) = total (ts.flatten.map f) := by
  obtain ⟨rest, h1, h2⟩ := h l
  have := h1.conserves f
  rw [flatten_of_finished h2, total_onLoc_threads hf] at this
  simpa [total] using this.symm

theorem exec_total {f : AtomicOp → Nat} {ts rest : List (List AtomicOp)} {ops : List AtomicOp}
    (h : Executes ts ops rest) (h2 : ∀ t ∈ rest, t = []) : total (ops.map f) = total (ts.flatten.map f) := by
  have := h.conserves f
  rw [flatten_of_finished h2] at this
  simpa [total] using this.symm

/-! ## The statistics -/

/-- C80: when all calls have returned, the variables have values that some interleaving of the operations in one order
gives as well: for the end result it does not matter that the operations are `Relaxed`. -/
theorem C80_final {clock : Int} {s : Stats} (hs : Stats.new clock = some s) {ts : List (List (RecordCall × Nat))}
    {mo : Loc → List AtomicOp} (h : RelaxedExec (ts.map threadOps) mo) :
    ∃ ops rest, Executes (ts.map threadOps) ops rest ∧ (∀ t ∈ rest, t = []) ∧
      ∀ l, ((mo l).foldl Stats.apply s).get l = (ops.foldl Stats.apply s).get l := by
  obtain ⟨rest, h1, h2⟩ := h .lastActivity
  obtain ⟨calls, rest', k1, k2, k3⟩ := h1.unmap (fun c : RecordCall × Nat => AtomicOp.storeLastActivity c.2)
    (ts := ts) (by rw [List.map_map]; exact List.map_congr_left fun th _ => onLoc_last th)
  have h2' : ∀ t ∈ rest', t = [] := by
    intro t ht
    have := h2 (t.map _) (by rw [k3]; exact List.mem_map_of_mem ht)
    exact List.map_eq_nil_iff.1 this
  have e := k1.flatMap (fun c => c.1.ops c.2)
  have hd : ∀ t ∈ rest'.map (List.flatMap fun c => c.1.ops c.2), t = [] := by
    intro t ht
    obtain ⟨u, hu, rfl⟩ := List.mem_map.1 ht
    rw [h2' u hu]; rfl
  refine ⟨_, _, e, hd, ?_⟩
  obtain ⟨h0, -⟩ := new_inRange hs
  have key : ∀ f l, (∀ op : AtomicOp, op.loc ≠ l → f op = 0) →
      total ((mo l).map f) = total ((calls.flatMap fun c => c.1.ops c.2).map f) := by
    intro f l hf
    rw [mo_total hf h, exec_total e hd]
    rfl
  intro l
  cases l with
  | lastActivity =>
    rw [get_onLoc .lastActivity (calls.flatMap fun c => c.1.ops c.2) s s rfl]
    have := onLoc_last calls
    unfold threadOps at this
    rw [this, ← k2]
  | bytesRead =>
    show ((mo _).foldl Stats.apply s).bytesRead = _
    rw [(Stats.fold h0 _).2.1, key _ _ (fun op ho => by cases op <;> first | rfl | exact absurd rfl ho)]
    exact (Stats.fold h0 _).2.1.symm
  | bytesWritten =>
    show ((mo _).foldl Stats.apply s).bytesWritten = _
    rw [(Stats.fold h0 _).2.2.1, key _ _ (fun op ho => by cases op <;> first | rfl | exact absurd rfl ho)]
    exact (Stats.fold h0 _).2.2.1.symm
  | messagesRead =>
    show ((mo _).foldl Stats.apply s).messagesRead = _
    rw [(Stats.fold h0 _).2.2.2.1, key _ _ (fun op ho => by cases op <;> first | rfl | exact absurd rfl ho)]
    exact (Stats.fold h0 _).2.2.2.1.symm
  | messagesWritten =>
    show ((mo _).foldl Stats.apply s).messagesWritten = _
    rw [(Stats.fold h0 _).2.2.2.2, key _ _ (fun op ho => by cases op <;> first | rfl | exact absurd rfl ho)]
    exact (Stats.fold h0 _).2.2.2.2.symm

/-- C80: so the totals are those of `C39_totals`. -/
theorem C80_totals {clock : Int} {s : Stats} (hs : Stats.new clock = some s) {ts : List (List (RecordCall × Nat))}
    {mo : Loc → List AtomicOp} (h : RelaxedExec (ts.map threadOps) mo) :
    ((mo .bytesRead).foldl Stats.apply s).bytesRead = total (ts.flatten.map (fun c => c.1.bytesIn)) % 2 ^ 64 ∧
    ((mo .bytesWritten).foldl Stats.apply s).bytesWritten = total (ts.flatten.map (fun c => c.1.bytesOut)) % 2 ^ 64 ∧
    ((mo .messagesRead).foldl Stats.apply s).messagesRead = ts.flatten.countP (fun c => c.1.isRead) % 2 ^ 64 ∧
    ((mo .messagesWritten).foldl Stats.apply s).messagesWritten = ts.flatten.countP (fun c => !c.1.isRead) % 2 ^ 64 := by
  obtain ⟨ops, rest, h1, h2, h3⟩ := C80_final hs h
  obtain ⟨t1, t2, t3, t4⟩ := C39_totals hs h1 h2
  exact ⟨(h3 .bytesRead).trans t1, (h3 .bytesWritten).trans t2, (h3 .messagesRead).trans t3,
    (h3 .messagesWritten).trans t4⟩

theorem Executes.own {α : Type} (f : α → Nat) {ts rest : List (List α)} {ops : List α} (h : Executes ts ops rest)
    {i : Nat} {th : List α} (hi : ts[i]? = some th) :
    ∃ d left, th = d ++ left ∧ rest[i]? = some left ∧ total (d.map f) ≤ total (ops.map f) := by
  induction h generalizing th with
  | stop ts => exact ⟨[], th, rfl, hi, Nat.le_refl _⟩
  | @step a b op t ops rest _ ih =>
    have tc : ∀ x l, total (x :: l) = x + total l := fun _ _ => rfl
    rcases Nat.lt_trichotomy i a.length with hl | hl | hl
    · rw [List.getElem?_append_left hl] at hi
      obtain ⟨d, left, h1, h2, h3⟩ := ih (th := th) (by rw [List.getElem?_append_left hl]; exact hi)
      exact ⟨d, left, h1, h2, by rw [List.map_cons, tc]; omega⟩
    · subst hl
      rw [List.getElem?_append_right (Nat.le_refl _), Nat.sub_self, List.getElem?_cons_zero] at hi
      cases hi
      obtain ⟨d, left, h1, h2, h3⟩ := ih (th := t)
        (by rw [List.getElem?_append_right (Nat.le_refl _), Nat.sub_self, List.getElem?_cons_zero])
      exact ⟨op :: d, left, by rw [h1]; rfl, h2, by rw [List.map_cons, List.map_cons, tc, tc]; omega⟩
    · have e : ∀ x : List α, (a ++ x :: b)[i]? = b[i - a.length - 1]? := by
        intro x
        rw [List.getElem?_append_right (Nat.le_of_lt hl)]
        obtain ⟨k, hk⟩ : ∃ k, i - a.length = k + 1 := ⟨i - a.length - 1, by omega⟩
        rw [hk, List.getElem?_cons_succ]; rfl
      rw [e] at hi
      obtain ⟨d, left, h1, h2, h3⟩ := ih (th := th) (by rw [e]; exact hi)
      exact ⟨d, left, h1, h2, by rw [List.map_cons, tc]; omega⟩

theorem onLoc_append (l : Loc) (a b : List AtomicOp) : onLoc l (a ++ b) = onLoc l a ++ onLoc l b := by
  simp [onLoc]

/-- What a load sees adds up to no less than the thread's own operations before it, and no more than everything. -/
theorem load_total {f : AtomicOp → Nat} {l : Loc} (hf : ∀ op, op.loc ≠ l → f op = 0) {ts : List (List AtomicOp)}
    {mo : Loc → List AtomicOp} (h : RelaxedExec ts mo) {i : Nat} {a b : List AtomicOp} (hi : ts[i]? = some (a ++ b))
    {p : List AtomicOp} (hp : RelaxedLoad ts mo l i a.length p) :
    total (a.map f) ≤ total (p.map f) ∧ total (p.map f) ≤ total (ts.flatten.map f) := by
  obtain ⟨⟨q, hq⟩, th, rest, left, h1, h2, h3, h4⟩ := hp
  rw [hi] at h1
  cases h1
  refine ⟨?_, ?_⟩
  · obtain ⟨d, left', k1, k2, k3⟩ := h2.own f (i := i) (th := onLoc l (a ++ b)) (by rw [List.getElem?_map, hi]; rfl)
    rw [h3] at k2
    cases k2
    rw [List.drop_left] at h4
    rw [onLoc_append] at k1
    rw [← total_onLoc hf a]
    have hlen : (onLoc l a).length ≤ d.length := by
      have := congrArg List.length k1
      simp only [List.length_append] at this
      omega
    have hpre : onLoc l a <+: d :=
      List.prefix_of_prefix_length_le (l₃ := onLoc l a ++ onLoc l b) (List.prefix_append _ _)
        (by rw [k1]; exact List.prefix_append _ _) hlen
    obtain ⟨e, he⟩ := hpre
    rw [← he, List.map_append, total_append] at k3
    omega
  · rw [← mo_total hf h, ← hq, List.map_append, total_append]
    omega

/-- C80: a load of the bytes written gives at least what the thread itself has recorded by then, and at most what is
recorded in all; the same holds of the bytes read.  (As long as fewer than `2^64` bytes are recorded.) -/
theorem C80_load {clock : Int} {s : Stats} (hs : Stats.new clock = some s) {ts : List (List (RecordCall × Nat))}
    (hsm : Small ts) {mo : Loc → List AtomicOp} (h : RelaxedExec (ts.map threadOps) mo) {i : Nat}
    {done todo : List (RecordCall × Nat)} (hi : ts[i]? = some (done ++ todo)) {p q : List AtomicOp}
    (hp : RelaxedLoad (ts.map threadOps) mo .bytesRead i (threadOps done).length p)
    (hq : RelaxedLoad (ts.map threadOps) mo .bytesWritten i (threadOps done).length q) :
    total (done.map (fun c => c.1.bytesIn)) ≤ (p.foldl Stats.apply s).bytesRead ∧
    (p.foldl Stats.apply s).bytesRead ≤ total (ts.flatten.map (fun c => c.1.bytesIn)) ∧
    total (done.map (fun c => c.1.bytesOut)) ≤ (q.foldl Stats.apply s).bytesWritten ∧
    (q.foldl Stats.apply s).bytesWritten ≤ total (ts.flatten.map (fun c => c.1.bytesOut)) := by
  obtain ⟨h0, z1, z2, -⟩ := new_inRange hs
  have hi' : (ts.map threadOps)[i]? = some (threadOps done ++ threadOps todo) := by
    rw [List.getElem?_map, hi]
    simp [threadOps]
  obtain ⟨a1, a2⟩ := load_total (f := AtomicOp.toBytesRead)
    (fun op ho => by cases op <;> first | rfl | exact absurd rfl ho) h hi' hp
  obtain ⟨b1, b2⟩ := load_total (f := AtomicOp.toBytesWritten)
    (fun op ho => by cases op <;> first | rfl | exact absurd rfl ho) h hi' hq
  have c1 := ops_total_le ts
  have c2 := ops_total_le_out ts
  have r1 := hsm.read
  have r2 := hsm.written
  -- the calls of `done` are below `2^64`, so nothing is lost in the conversion
  have hmem : ∀ c ∈ done, c ∈ ts.flatten := fun c hc =>
    List.mem_flatten.2 ⟨_, List.mem_of_getElem? hi, List.mem_append.2 (.inl hc)⟩
  have d1 : total (done.map (fun c => c.1.bytesIn)) = total ((threadOps done).map AtomicOp.toBytesRead) := by
    have : ∀ c ∈ done, c.1.bytesIn < 2 ^ 64 := fun c hc =>
      Nat.lt_of_le_of_lt (le_total (List.mem_map_of_mem (f := fun c : RecordCall × Nat => c.1.bytesIn) (hmem c hc))) r1
    clear hi hi' hp hq hmem a1 b1
    induction done with
    | nil => rfl
    | cons c done ih =>
      have tc : ∀ x l, total (x :: l) = x + total l := fun _ _ => rfl
      have e : threadOps (c :: done) = c.1.ops c.2 ++ threadOps done := rfl
      rw [List.map_cons, tc, e, List.map_append, total_append, ih (fun c hc => this c (by simp [hc]))]
      have hc := this c (by simp)
      obtain ⟨c, now⟩ := c
      cases c with
      | read n =>
        simp only [RecordCall.bytesIn] at hc ⊢
        simp [RecordCall.ops, AtomicOp.toBytesRead, total, Nat.mod_eq_of_lt (show n < u64Mod from hc)]
      | write n => simp [RecordCall.bytesIn, RecordCall.ops, AtomicOp.toBytesRead, total]
  have d2 : total (done.map (fun c => c.1.bytesOut)) = total ((threadOps done).map AtomicOp.toBytesWritten) := by
    have : ∀ c ∈ done, c.1.bytesOut < 2 ^ 64 := fun c hc =>
      Nat.lt_of_le_of_lt (le_total (List.mem_map_of_mem (f := fun c : RecordCall × Nat => c.1.bytesOut) (hmem c hc))) r2
    clear hi hi' hp hq hmem a1 b1 d1
    induction done with
    | nil => rfl
    | cons c done ih =>
      have tc : ∀ x l, total (x :: l) = x + total l := fun _ _ => rfl
      have e : threadOps (c :: done) = c.1.ops c.2 ++ threadOps done := rfl
      rw [List.map_cons, tc, e, List.map_append, total_append, ih (fun c hc => this c (by simp [hc]))]
      have hc := this c (by simp)
      obtain ⟨c, now⟩ := c
      cases c with
      | write n =>
        simp only [RecordCall.bytesOut] at hc ⊢
        simp [RecordCall.ops, AtomicOp.toBytesWritten, total, Nat.mod_eq_of_lt (show n < u64Mod from hc)]
      | read n => simp [RecordCall.bytesOut, RecordCall.ops, AtomicOp.toBytesWritten, total]
  have e1 : (p.foldl Stats.apply s).bytesRead = total (p.map AtomicOp.toBytesRead) := by
    rw [(Stats.fold h0 p).2.1, z1, Nat.zero_add]
    exact Nat.mod_eq_of_lt (show _ < 2 ^ 64 by omega)
  have e2 : (q.foldl Stats.apply s).bytesWritten = total (q.map AtomicOp.toBytesWritten) := by
    rw [(Stats.fold h0 q).2.2.1, z2, Nat.zero_add]
    exact Nat.mod_eq_of_lt (show _ < 2 ^ 64 by omega)
  rw [e1, e2, d1, d2]
  exact ⟨a1, by omega, b1, by omega⟩

/-- C80: the ratio.  A thread records 100 bytes written and then 10 bytes read.  At no moment in any order of all
operations were bytes read recorded and not those written; yet another thread can be told that nothing was written.
`C60_moments_partial` does not hold of `Relaxed` loads. -/
theorem C80_ratio_counterexample :
    let ts : List (List (RecordCall × Nat)) := [[(.write 100, 6), (.read 10, 7)], []]
    let mo : Loc → List AtomicOp := fun l => onLoc l (threadOps [(.write 100, 6), (.read 10, 7)])
    ∃ s, Stats.new 5 = some s ∧ RelaxedExec (ts.map threadOps) mo ∧
      (∃ p q, RelaxedLoad (ts.map threadOps) mo .bytesRead 1 0 p ∧
        RelaxedLoad (ts.map threadOps) mo .bytesWritten 1 0 q ∧
        (p.foldl Stats.apply s).bytesRead = 10 ∧ (q.foldl Stats.apply s).bytesWritten = 0) ∧
      ∀ ops rest, Executes (ts.map threadOps) ops rest →
        (ops.foldl Stats.apply s).bytesRead ≠ 0 → (ops.foldl Stats.apply s).bytesWritten = 100 := by
  refine ⟨⟨0, 0, 0, 0, 5⟩, by decide, ?_, ?_, ?_⟩
  · intro l
    have : ∀ (x : List AtomicOp), Executes [x, []] x [[], []] := by
      intro x
      have := Executes.run_thread (a := []) (b := [[]]) (t := []) x (Executes.stop [[], []])
      simpa using this
    refine ⟨[[], []], ?_, by simp⟩
    have e : (List.map threadOps [[(RecordCall.write 100, 6), (.read 10, 7)], []]).map (onLoc l) =
        [onLoc l (threadOps [(.write 100, 6), (.read 10, 7)]), []] := by simp [threadOps, onLoc]
    rw [e]
    exact this _
  · refine ⟨[.addBytesRead 10], [], ⟨by decide, _, [[], []], [], rfl, ?_, rfl, by simp⟩,
      ⟨by decide, _, _, [], rfl, .stop _, rfl, by simp⟩, by decide, by decide⟩
    exact .step (a := []) (.stop _)
  · intro ops rest h
    have hpre : ∀ {ts rest : List (List AtomicOp)} {ops : List AtomicOp}, Executes ts ops rest →
        ∀ x, ts = [x, []] → ops <+: x := by
      intro ts rest ops h
      induction h with
      | stop ts => intro x _; exact List.nil_prefix
      | @step a b op t ops rest _ ih =>
        intro x hx
        cases a with
        | nil =>
          simp only [List.nil_append, List.cons.injEq] at hx
          obtain ⟨rfl, rfl⟩ := hx
          exact (List.cons_prefix_cons).2 ⟨rfl, ih t rfl⟩
        | cons y a =>
          simp only [List.cons_append, List.cons.injEq] at hx
          obtain ⟨rfl, hx⟩ := hx
          cases a with
          | nil => simp at hx
          | cons z a => simp at hx
    obtain ⟨q, hq⟩ := hpre h (threadOps [(.write 100, 6), (.read 10, 7)]) rfl
    have hlen : ops = (threadOps [(.write 100, 6), (.read 10, 7)]).take ops.length := by rw [← hq]; simp
    have hle : ops.length ≤ 6 := by
      have := congrArg List.length hq
      simp [threadOps, RecordCall.ops] at this
      omega
    rw [hlen]
    generalize ops.length = n at hle
    have : ∀ n, n ≤ 6 → (((threadOps [(.write 100, 6), (.read 10, 7)]).take n).foldl Stats.apply
        ⟨0, 0, 0, 0, 5⟩).bytesRead ≠ 0 → (((threadOps [(.write 100, 6), (.read 10, 7)]).take n).foldl Stats.apply
        ⟨0, 0, 0, 0, 5⟩).bytesWritten = 100 := by decide
    exact this n hle

/-- Non-vacuity: two threads, with a load by the first in between.  The order of the calls differs from variable to
variable, which no single order gives. -/
example :
    let ts : List (List (RecordCall × Nat)) := [[(.write 100, 6)], [(.write 7, 8)]]
    let mo : Loc → List AtomicOp := fun
      | .bytesWritten => [.addBytesWritten 100, .addBytesWritten 7]
      | .messagesWritten => [.addMessagesWritten 1, .addMessagesWritten 1]
      | .lastActivity => [.storeLastActivity 8, .storeLastActivity 6]
      | _ => []
    Small ts ∧ RelaxedExec (ts.map threadOps) mo ∧
      RelaxedLoad (ts.map threadOps) mo .bytesRead 0 3 [] ∧
      RelaxedLoad (ts.map threadOps) mo .bytesWritten 0 3 [.addBytesWritten 100] ∧
      ts[0]? = some ([(.write 100, 6)] ++ []) ∧ (threadOps [(.write 100, 6)]).length = 3 := by
  refine ⟨⟨by decide, by decide⟩, ?_, ?_, ?_, rfl, rfl⟩
  · intro l
    cases l with
    | bytesRead => exact ⟨_, .stop _, by simp [threadOps, RecordCall.ops, onLoc, AtomicOp.loc]⟩
    | messagesRead => exact ⟨_, .stop _, by simp [threadOps, RecordCall.ops, onLoc, AtomicOp.loc]⟩
    | bytesWritten => exact ⟨[[], []], .step (a := []) (.step (a := [[]]) (.stop _)), by simp⟩
    | messagesWritten => exact ⟨[[], []], .step (a := []) (.step (a := [[]]) (.stop _)), by simp⟩
    | lastActivity => exact ⟨[[], []], .step (a := [[AtomicOp.storeLastActivity 6]]) (t := []) (b := []) (.step (a := []) (t := []) (.stop _)),
        by simp⟩
  · exact ⟨by simp, _, _, [], rfl, .stop _, rfl, by simp⟩
  · exact ⟨by simp, _, [[], [.addBytesWritten 7]], [], rfl, .step (a := []) (.stop _), rfl, by simp⟩

/-! ## The flag -/

/-- The system as the decoy thread sees it: the writer was dropped when the store became visible. -/
def RelaxedSys.view (t : RelaxedSys R) : ShapedSys R :=
  { t.sys with app := if t.sys.shutdown && !t.seen then .idle else t.sys.app, shutdown := t.seen }

/-- What holds of every state of a run. -/
def RelaxedSys.Ok (t : RelaxedSys R) : Prop :=
  (t.sys.shutdown = true → t.sys.app = .joining ∨ t.sys.app = .gone) ∧ (t.seen = true → t.sys.shutdown = true) ∧
    (t.sys.app = .gone → t.sys.bg = .finished ∨ t.sys.bg = .panicked) ∧ (t.sys.app = .joining → t.sys.shutdown = true) ∧
    (t.sys.app = .gone → t.sys.shutdown = true)

theorem RelaxedSys.view_bg (t : RelaxedSys R) :
    (t.step P prof (.sys .bg)).view = t.view.step P prof .bg := by
  obtain ⟨⟨ws, owner, poisoned, shutdown, app, bg, reader, called, returned, reads0⟩, seen⟩ := t
  cases bg with
  | trying =>
    cases owner with
    | some t => rfl
    | none => cases poisoned <;> rfl
  | covering pc => cases pc <;> rfl
  | _ => rfl

theorem RelaxedSys.step_ok (t : RelaxedSys R) (h : t.Ok) (l : RelaxedLabel) : (t.step P prof l).Ok := by
  obtain ⟨⟨ws, owner, poisoned, shutdown, app, bg, reader, called, returned, reads0⟩, seen⟩ := t
  obtain ⟨h1, h2, h3, h4, h5⟩ := h
  simp only at h1 h2 h3 h4 h5
  cases l with
  | visible => exact ⟨h1, by simp only [RelaxedSys.step]; cases shutdown <;> simp_all, h3, h4, h5⟩
  | sys l =>
    cases l with
    | call p =>
      cases app with
      | idle =>
        exact ⟨by simpa [RelaxedSys.step, ShapedSys.step] using h1, h2, by simp [RelaxedSys.step, ShapedSys.step],
          by simp [RelaxedSys.step, ShapedSys.step], by simp [RelaxedSys.step, ShapedSys.step]⟩
      | _ => exact ⟨h1, h2, h3, h4, h5⟩
    | drop =>
      cases app with
      | idle =>
        exact ⟨by simp [RelaxedSys.step, ShapedSys.step], fun _ => rfl, by simp [RelaxedSys.step, ShapedSys.step],
          fun _ => rfl, fun _ => rfl⟩
      | _ => exact ⟨h1, h2, h3, h4, h5⟩
    | read => exact ⟨h1, h2, h3, h4, h5⟩
    | app =>
      cases app with
      | idle => exact ⟨h1, h2, h3, h4, h5⟩
      | locking p =>
        have hs : shutdown = false := by cases shutdown <;> simp_all
        subst hs
        cases owner with
        | some o => exact ⟨h1, h2, h3, h4, h5⟩
        | none =>
          cases poisoned
          · exact ⟨by simp [RelaxedSys.step, ShapedSys.step, ShapedSys.appStep], h2,
              by simp [RelaxedSys.step, ShapedSys.step, ShapedSys.appStep],
              by simp [RelaxedSys.step, ShapedSys.step, ShapedSys.appStep],
              by simp [RelaxedSys.step, ShapedSys.step, ShapedSys.appStep]⟩
          · exact ⟨by simp [RelaxedSys.step, ShapedSys.step, ShapedSys.appStep], h2,
              by simp [RelaxedSys.step, ShapedSys.step, ShapedSys.appStep],
              by simp [RelaxedSys.step, ShapedSys.step, ShapedSys.appStep],
              by simp [RelaxedSys.step, ShapedSys.step, ShapedSys.appStep]⟩
      | writing p pc =>
        have hs : shutdown = false := by cases shutdown <;> simp_all
        subst hs
        cases pc <;>
        exact ⟨by simp [RelaxedSys.step, ShapedSys.step, ShapedSys.appStep], h2,
              by simp [RelaxedSys.step, ShapedSys.step, ShapedSys.appStep],
              by simp [RelaxedSys.step, ShapedSys.step, ShapedSys.appStep],
              by simp [RelaxedSys.step, ShapedSys.step, ShapedSys.appStep]⟩
      | joining =>
        by_cases hb : bg = .finished ∨ bg = .panicked
        · have : (RelaxedSys.mk ⟨ws, owner, poisoned, shutdown, .joining, bg, reader, called, returned, reads0⟩
              seen).step P prof (.sys .app) =
              ⟨⟨ws, owner, poisoned, shutdown, .gone, bg, reader, called, returned, reads0⟩, seen⟩ := by
            simp [RelaxedSys.step, ShapedSys.step, ShapedSys.appStep, hb]
          rw [this]
          exact ⟨fun _ => .inr rfl, h2, fun _ => hb, fun _ => h4 rfl, fun _ => h4 rfl⟩
        · have : (RelaxedSys.mk ⟨ws, owner, poisoned, shutdown, .joining, bg, reader, called, returned, reads0⟩
              seen).step P prof (.sys .app) =
              ⟨⟨ws, owner, poisoned, shutdown, .joining, bg, reader, called, returned, reads0⟩, seen⟩ := by
            simp [RelaxedSys.step, ShapedSys.step, ShapedSys.appStep, hb]
          rw [this]
          exact ⟨h1, h2, h3, h4, h5⟩
      | gone => exact ⟨h1, h2, h3, h4, h5⟩
    | bg =>
      cases bg with
      | trying =>
        have h3' : app ≠ .gone := fun h => by simpa using h3 h
        cases owner with
        | some t => exact ⟨h1, h2, fun h => absurd h h3', h4, h5⟩
        | none => cases poisoned <;> exact ⟨h1, h2, fun h => absurd h h3', h4, h5⟩
      | covering pc =>
        have h3' : app ≠ .gone := fun h => by simpa using h3 h
        cases pc <;> exact ⟨h1, h2, fun h => absurd h h3', h4, h5⟩
      | checking =>
        have h3' : app ≠ .gone := fun h => by simpa using h3 h
        exact ⟨h1, h2, fun h => absurd h h3', h4, h5⟩
      | sleeping =>
        have h3' : app ≠ .gone := fun h => by simpa using h3 h
        exact ⟨h1, h2, fun h => absurd h h3', h4, h5⟩
      | finished => exact ⟨h1, h2, h3, h4, h5⟩
      | panicked => exact ⟨h1, h2, h3, h4, h5⟩

/-- The store reaches the thread: that is when, for the thread, the writer is dropped. -/
theorem RelaxedSys.view_visible (t : RelaxedSys R) (h : t.Ok) (hs : t.sys.shutdown = true) (hn : t.seen = false) :
    t.view.app = .idle ∧ ∃ k, (t.step P prof .visible).view = t.view.run P prof (.drop :: List.replicate k .app) := by
  obtain ⟨⟨ws, owner, poisoned, shutdown, app, bg, reader, called, returned, reads0⟩, seen⟩ := t
  obtain ⟨h1, h2, h3, h4, h5⟩ := h
  simp only at h1 h2 h3 h4 h5 hs hn
  subst hs hn
  refine ⟨rfl, ?_⟩
  rcases h1 rfl with rfl | rfl
  · exact ⟨0, rfl⟩
  · rcases h3 rfl with rfl | rfl <;> exact ⟨1, rfl⟩

/-- The steps of the decoy thread and of the reader. -/
def SysLabel.notApp : SysLabel → Bool
  | .bg => true
  | .read => true
  | _ => false

/-- The step of the system a label stands for. -/
def RelaxedLabel.sys? : RelaxedLabel → Option SysLabel
  | .sys l => some l
  | .visible => none

theorem RelaxedSys.view_step (t : RelaxedSys R) (h : t.Ok) (l : RelaxedLabel) :
    ∃ ls, (t.step P prof l).view = t.view.run P prof ls ∧
      ls.filter SysLabel.notApp = l.sys?.toList.filter SysLabel.notApp ∧
      (l ≠ .visible → t.seen = false → .drop ∉ ls) ∧ (t.seen = true → ls = l.sys?.toList) := by
  cases l with
  | visible =>
    by_cases hx : t.sys.shutdown = true ∧ t.seen = false
    · obtain ⟨-, k, hk⟩ := RelaxedSys.view_visible (P := P) (prof := prof) t h hx.1 hx.2
      refine ⟨_, hk, ?_, by simp, by simp [hx.2]⟩
      rw [List.filter_cons_of_neg (by simp [SysLabel.notApp])]
      induction k with
      | zero => rfl
      | succ k ih => rw [List.replicate_succ, List.filter_cons_of_neg (by simp [SysLabel.notApp])]; simp [SysLabel.notApp, RelaxedLabel.sys?]
    · refine ⟨[], ?_, rfl, by simp, fun _ => rfl⟩
      obtain ⟨⟨ws, owner, poisoned, shutdown, app, bg, reader, called, returned, reads0⟩, seen⟩ := t
      simp only at hx
      cases shutdown <;> cases seen <;> first | rfl | exact absurd ⟨rfl, rfl⟩ hx
  | sys l =>
    cases l with
    | bg => exact ⟨[.bg], RelaxedSys.view_bg t, rfl, by simp, fun _ => rfl⟩
    | read => exact ⟨[.read], rfl, rfl, by simp, fun _ => rfl⟩
    | call p =>
      obtain ⟨⟨ws, owner, poisoned, shutdown, app, bg, reader, called, returned, reads0⟩, seen⟩ := t
      obtain ⟨h1, h2, h3, h4, h5⟩ := h
      simp only at h1 h2 h3 h4 h5
      cases hx : shutdown && !seen with
      | false =>
        refine ⟨[.call p], ?_, rfl, by simp, fun _ => rfl⟩
        cases app <;> simp [RelaxedSys.view, RelaxedSys.step, ShapedSys.step, ShapedSys.run, hx]
      | true =>
        obtain ⟨rfl, hs⟩ : shutdown = true ∧ seen = false := by cases shutdown <;> cases seen <;> simp_all
        subst hs
        refine ⟨[], ?_, rfl, by simp, by simp⟩
        rcases h1 rfl with rfl | rfl <;> rfl
    | drop =>
      obtain ⟨⟨ws, owner, poisoned, shutdown, app, bg, reader, called, returned, reads0⟩, seen⟩ := t
      obtain ⟨h1, h2, h3, h4, h5⟩ := h
      simp only at h1 h2 h3 h4 h5
      cases seen with
      | false =>
        refine ⟨[], ?_, rfl, by simp, by simp⟩
        cases shutdown <;> cases app <;> rfl
      | true =>
        have := h2 rfl
        subst this
        refine ⟨[.drop], ?_, rfl, by simp, fun _ => rfl⟩
        rcases h1 rfl with rfl | rfl <;> rfl
    | app =>
      obtain ⟨⟨ws, owner, poisoned, shutdown, app, bg, reader, called, returned, reads0⟩, seen⟩ := t
      obtain ⟨h1, h2, h3, h4, h5⟩ := h
      simp only at h1 h2 h3 h4 h5
      cases hx : shutdown && !seen with
      | false =>
        refine ⟨[.app], ?_, rfl, by simp, fun _ => rfl⟩
        have hss : shutdown = seen := by cases shutdown <;> cases seen <;> simp_all
        subst hss
        have e : ∀ u : ShapedSys R, u.shutdown = shutdown → (RelaxedSys.mk u shutdown).view = u := by
          intro u hu
          obtain ⟨ws, owner, poisoned, shutdown', app, bg, reader, called, returned, reads0⟩ := u
          simp only at hu
          subst hu
          simp only [RelaxedSys.view, hx]
          rfl
        rw [e _ rfl]
        refine e _ ?_
        cases app with
        | locking p =>
          cases owner with
          | some o => rfl
          | none => cases poisoned <;> rfl
        | writing p pc => cases pc <;> rfl
        | joining =>
          simp only [ShapedSys.step, ShapedSys.appStep]
          split <;> rfl
        | _ => rfl
      | true =>
        obtain ⟨rfl, hs⟩ : shutdown = true ∧ seen = false := by cases shutdown <;> cases seen <;> simp_all
        subst hs
        refine ⟨[], ?_, rfl, by simp, by simp⟩
        rcases h1 rfl with rfl | rfl
        · simp only [RelaxedSys.step, ShapedSys.step, ShapedSys.appStep]
          split <;> rfl
        · rfl

theorem RelaxedSys.run_ok (ls : List RelaxedLabel) {t : RelaxedSys R} (h : t.Ok) : (t.run P prof ls).Ok := by
  induction ls generalizing t with
  | nil => exact h
  | cons l ls ih => exact ih (t.step_ok h l)

theorem RelaxedSys.run_append (t : RelaxedSys R) (a b : List RelaxedLabel) :
    t.run P prof (a ++ b) = (t.run P prof a).run P prof b := by
  simp [RelaxedSys.run]

theorem RelaxedSys.view_run (ls : List RelaxedLabel) {t : RelaxedSys R} (h : t.Ok) :
    ∃ ls', (t.run P prof ls).view = t.view.run P prof ls' ∧
      ls'.filter SysLabel.notApp = (ls.filterMap RelaxedLabel.sys?).filter SysLabel.notApp := by
  induction ls generalizing t with
  | nil => exact ⟨[], rfl, rfl⟩
  | cons l ls ih =>
    obtain ⟨a, ha, hf, -⟩ := RelaxedSys.view_step (P := P) (prof := prof) t h l
    obtain ⟨b, hb, hg⟩ := ih (t.step_ok (P := P) (prof := prof) h l)
    refine ⟨a ++ b, ?_, ?_⟩
    · show ((t.step P prof l).run P prof ls).view = _
      rw [hb, ha, ShapedSys.run_append]
    · rw [List.filter_append, hf, hg, List.filterMap_cons]
      cases l with
      | visible => rfl
      | sys l => cases hl : l.notApp <;> simp [RelaxedLabel.sys?, hl]

theorem ShapedSys.Fresh.ok {s0 : ShapedSys R} (h0 : s0.Fresh) (hsh : s0.shutdown = false) : (RelaxedSys.mk s0 false).Ok := by
  refine ⟨fun h => ?_, by simp, fun h => ?_, fun h => ?_, fun h => ?_⟩
  · simp_all
  all_goals have := h0.app; simp_all

theorem RelaxedSys.view_start {s0 : ShapedSys R} (hsh : s0.shutdown = false) :
    (RelaxedSys.mk s0 false).view = s0 := by
  obtain ⟨ws, owner, poisoned, shutdown, app, bg, reader, called, returned, reads0⟩ := s0
  simp only at hsh
  subst hsh
  rfl

/-- C80: a store that is seen late is a drop that happens late.  Whatever the schedule, everything that is sent and
read is what it would be with one order of all operations, in which the writer is dropped when the thread sees the
flag.  So what is proved of all such schedules about packets, reads and the writer's state holds here. -/
theorem C80_delayed {s0 : ShapedSys R} (h0 : s0.Fresh) (hsh : s0.shutdown = false) (ls : List RelaxedLabel) :
    ∃ ls', ls'.filter SysLabel.notApp = (ls.filterMap RelaxedLabel.sys?).filter SysLabel.notApp ∧
      ((RelaxedSys.mk s0 false).run P prof ls).sys.ws = (s0.run P prof ls').ws ∧
      ((RelaxedSys.mk s0 false).run P prof ls).sys.bg = (s0.run P prof ls').bg ∧
      ((RelaxedSys.mk s0 false).run P prof ls).sys.owner = (s0.run P prof ls').owner ∧
      ((RelaxedSys.mk s0 false).run P prof ls).sys.poisoned = (s0.run P prof ls').poisoned ∧
      ((RelaxedSys.mk s0 false).run P prof ls).sys.reader = (s0.run P prof ls').reader ∧
      ((RelaxedSys.mk s0 false).run P prof ls).sys.reads = (s0.run P prof ls').reads ∧
      ((RelaxedSys.mk s0 false).run P prof ls).sys.called = (s0.run P prof ls').called ∧
      ((RelaxedSys.mk s0 false).run P prof ls).sys.returned = (s0.run P prof ls').returned := by
  obtain ⟨ls', h1, h2⟩ := RelaxedSys.view_run (P := P) (prof := prof) ls (h0.ok hsh)
  rw [RelaxedSys.view_start hsh] at h1
  refine ⟨ls', h2, ?_⟩
  rw [← h1]
  exact ⟨rfl, rfl, rfl, rfl, rfl, rfl, rfl, rfl⟩

/-- C80: once the thread sees that the writer was dropped, it sends at most the rest of one decoy. -/
theorem C80_one_more {s0 : ShapedSys R} (h0 : s0.Fresh) (hsh : s0.shutdown = false) (ls1 ls2 : List RelaxedLabel)
    (hs : ((RelaxedSys.mk s0 false).run P prof ls1).sys.shutdown = true)
    (hn : ((RelaxedSys.mk s0 false).run P prof ls1).seen = false) :
    let before := ((RelaxedSys.mk s0 false).run P prof ls1).sys.ws.writer.writer.out
    let after := ((RelaxedSys.mk s0 false).run P prof (ls1 ++ .visible :: ls2)).sys.ws.writer.writer.out
    after = before ∨
    ∃ tr ws d o pkt b a, Serial .sync P prof s0.ws tr ws ∧ ShaperDecoy d ∧
      Sent P prof ws.writer.cipher [d] o pkt ∧ b ++ a <+: pkt ∧
      before = ws.writer.writer.out ++ b ∧ after = ws.writer.writer.out ++ b ++ a := by
  obtain ⟨l1, k1, -⟩ := RelaxedSys.view_run (P := P) (prof := prof) ls1 (h0.ok hsh)
  have ok1 := RelaxedSys.run_ok (P := P) (prof := prof) ls1 (h0.ok hsh)
  obtain ⟨hi, k, hk⟩ := RelaxedSys.view_visible (P := P) (prof := prof) _ ok1 hs hn
  obtain ⟨l2, k2, -⟩ := RelaxedSys.view_run (P := P) (prof := prof) ls2
    (RelaxedSys.step_ok (P := P) (prof := prof) _ ok1 .visible)
  rw [RelaxedSys.view_start hsh] at k1
  have e : (((RelaxedSys.mk s0 false).run P prof (ls1 ++ .visible :: ls2)).view) =
      s0.run P prof (l1 ++ .drop :: (List.replicate k .app ++ l2)) := by
    rw [RelaxedSys.run_append]
    show ((((RelaxedSys.mk s0 false).run P prof ls1).step P prof .visible).run P prof ls2).view = _
    rw [k2, hk, k1, ← ShapedSys.run_append, ← ShapedSys.run_append]
    simp
  have := C40_threads_one_more (P := P) (prof := prof) h0 l1 (List.replicate k .app ++ l2) (by rw [← k1]; exact hi)
  rw [← e, ← k1] at this
  exact this

/-- C80: and it ends, so that the drop returns: there is a number of its steps after which it has ended, whatever else
happens in between. -/
theorem C80_terminates {s0 : ShapedSys R} (h0 : s0.Fresh) (hsh : s0.shutdown = false) (ls1 : List RelaxedLabel)
    (hs : ((RelaxedSys.mk s0 false).run P prof ls1).sys.shutdown = true)
    (hn : ((RelaxedSys.mk s0 false).run P prof ls1).seen = false) :
    ∃ n, ∀ ls2, n ≤ ls2.count (.sys .bg) →
      (((RelaxedSys.mk s0 false).run P prof (ls1 ++ .visible :: ls2)).sys.bg = .finished ∨
        ((RelaxedSys.mk s0 false).run P prof (ls1 ++ .visible :: ls2)).sys.bg = .panicked) ∧
      ((RelaxedSys.mk s0 false).run P prof (ls1 ++ .visible :: (ls2 ++ [.sys .app]))).sys.app = .gone := by
  obtain ⟨l1, k1, -⟩ := RelaxedSys.view_run (P := P) (prof := prof) ls1 (h0.ok hsh)
  have ok1 := RelaxedSys.run_ok (P := P) (prof := prof) ls1 (h0.ok hsh)
  obtain ⟨hi, k, hk⟩ := RelaxedSys.view_visible (P := P) (prof := prof) _ ok1 hs hn
  rw [RelaxedSys.view_start hsh] at k1
  obtain ⟨n, hn'⟩ := C40_threads_terminates (P := P) (prof := prof) (s0 := s0) l1 (by rw [← k1]; exact hi)
  refine ⟨n, fun ls2 hc => ?_⟩
  have ok2 := RelaxedSys.step_ok (P := P) (prof := prof) _ ok1 .visible
  obtain ⟨l2, k2, f2⟩ := RelaxedSys.view_run (P := P) (prof := prof) ls2 ok2
  have hcount : n ≤ (List.replicate k SysLabel.app ++ l2).count .bg := by
    have a1 : l2.count .bg = (l2.filter SysLabel.notApp).count .bg := by
      rw [List.count_filter]; rfl
    have a2 : ∀ ls : List RelaxedLabel, ls.count (.sys .bg) =
        ((ls.filterMap RelaxedLabel.sys?).filter SysLabel.notApp).count .bg := by
      intro ls
      rw [List.count_filter (by rfl)]
      induction ls with
      | nil => rfl
      | cons l ls ih =>
        rw [List.count_cons, ih]
        cases l with
        | visible => rw [List.filterMap_cons_none rfl]; simp
        | sys l => rw [List.filterMap_cons_some (by rfl : RelaxedLabel.sys? (.sys l) = some l)]; simp [List.count_cons]
    rw [List.count_append, a1, f2, ← a2]
    omega
  obtain ⟨m1, m2⟩ := hn' _ hcount
  have e : (((RelaxedSys.mk s0 false).run P prof (ls1 ++ .visible :: ls2)).view) =
      s0.run P prof (l1 ++ .drop :: (List.replicate k .app ++ l2)) := by
    rw [RelaxedSys.run_append]
    show ((((RelaxedSys.mk s0 false).run P prof ls1).step P prof .visible).run P prof ls2).view = _
    rw [k2, hk, k1, ← ShapedSys.run_append, ← ShapedSys.run_append]
    simp
  rw [← e] at m1
  have m1 : ((RelaxedSys.mk s0 false).run P prof (ls1 ++ .visible :: ls2)).sys.bg = .finished ∨
        ((RelaxedSys.mk s0 false).run P prof (ls1 ++ .visible :: ls2)).sys.bg = .panicked := m1
  refine ⟨m1, ?_⟩
  have hsd : ∀ ls (t : RelaxedSys R), t.Ok → t.sys.shutdown = true → (t.run P prof ls).sys.shutdown = true := by
    intro ls
    induction ls with
    | nil => exact fun _ _ h => h
    | cons l ls ih =>
      intro t ht hs
      refine ih _ (t.step_ok ht l) ?_
      cases l with
      | visible => exact hs
      | sys l =>
        obtain ⟨⟨ws, owner, poisoned, shutdown, app, bg, reader, called, returned, reads0⟩, seen⟩ := t
        obtain ⟨h1, -⟩ := ht
        simp only at h1 hs
        subst hs
        cases l with
        | call p => rcases h1 rfl with rfl | rfl <;> rfl
        | drop => rcases h1 rfl with rfl | rfl <;> rfl
        | read => rfl
        | app =>
          rcases h1 rfl with rfl | rfl
          · simp only [RelaxedSys.step, ShapedSys.step, ShapedSys.appStep]
            split <;> rfl
          · rfl
        | bg =>
          cases bg with
          | trying =>
            cases owner with
            | some t => rfl
            | none => cases poisoned <;> rfl
          | covering pc => cases pc <;> rfl
          | _ => rfl
  have e3 : ls1 ++ RelaxedLabel.visible :: (ls2 ++ [.sys .app]) = (ls1 ++ .visible :: ls2) ++ [.sys .app] := by simp
  rw [e3, RelaxedSys.run_append]
  have ok3 := RelaxedSys.run_ok (P := P) (prof := prof) (ls1 ++ .visible :: ls2) (h0.ok hsh)
  have hs3 : ((RelaxedSys.mk s0 false).run P prof (ls1 ++ .visible :: ls2)).sys.shutdown = true := by
    rw [RelaxedSys.run_append]
    exact hsd (.visible :: ls2) _ ok1 hs
  generalize (RelaxedSys.mk s0 false).run P prof (ls1 ++ .visible :: ls2) = u at m1 ok3 hs3 ⊢
  show (u.sys.appStep P prof).app = .gone
  rcases ok3.1 hs3 with hj | hj
  · simp [ShapedSys.appStep, hj, m1]
  · simp [ShapedSys.appStep, hj]

/-! ## A store that is not seen -/

/-- One round of the decoy thread, if nobody else does anything. -/
theorem ShapedSys.bg_round {s : ShapedSys R} {ws : WriterState R} (hb : s.bg = .checking) (hs : s.shutdown = false)
    (ho : s.owner = none) (hp : s.poisoned = false) (hx : s.ws.cover .sync P prof = (ws, .ok ())) :
    ∃ m, s.run P prof (List.replicate m .bg) = { s with ws } := by
  obtain ⟨ws0, owner, poisoned, shutdown, app, bg, reader, called, returned, reads0⟩ := s
  simp only at hb hs ho hp hx
  subst hb hs ho hp
  obtain ⟨n, hn⟩ := JobPc.ends (P := P) (prof := prof) .sync ws0 (.start .cover)
  have hf : (JobPc.start .cover).finish .sync P prof ws0 = (ws, .ok ()) := hx
  rw [hf] at hn
  obtain ⟨m, -, hm⟩ := ShapedSys.bg_finishes n
    ⟨ws0, some .bg, false, false, app, .covering (.start .cover), reader, called, returned, reads0⟩
    (.start .cover) ws (.ok ()) rfl hn
  refine ⟨3 + m + 1, ?_⟩
  rw [List.replicate_succ', ← List.replicate_append_replicate, ShapedSys.run_append, ShapedSys.run_append]
  have h3 : ShapedSys.run P prof
      (⟨ws0, none, false, false, app, .checking, reader, called, returned, reads0⟩ : ShapedSys R)
      (List.replicate 3 .bg) =
      ⟨ws0, some .bg, false, false, app, .covering (.start .cover), reader, called, returned, reads0⟩ := rfl
  rw [h3, hm]
  rfl

/-- The thread sends `n` decoys in a row, if nobody else does anything. -/
theorem ShapedSys.decoys_in_row (hP : Lawful P) {kL kP : Bytes} (n : Nat) {c : Nat} {s : ShapedSys greedyRng}
    (hb : s.bg = .checking) (hs : s.shutdown = false) (ho : s.owner = none) (hp : s.poisoned = false)
    (hcfg : s.ws.shaper.config.decoy = .random) (hw : s.ws.writer.writer.Reliable true)
    (hat : OutboundCipher.At P kL kP c s.ws.writer.cipher) (hn : c + n < 2 ^ 32) :
    ∃ m o pkts, Sent P prof s.ws.writer.cipher (List.replicate n (.decoy (zeros 1024))) o pkts ∧
      (s.run P prof (List.replicate m .bg)).app = s.app ∧
      (s.run P prof (List.replicate m .bg)).ws.writer.writer.out = s.ws.writer.writer.out ++ pkts := by
  induction n generalizing c s with
  | zero => exact ⟨0, s.ws.writer.cipher, [], .nil _, rfl, by simp [ShapedSys.run]⟩
  | succ n ih =>
    have hdecoy : s.ws.shaper.decoy = (s.ws.shaper, some (.decoy (zeros 1024)), [1024]) := by
      unfold Shaper.decoy
      rw [hcfg]
      rfl
    have hv : (Payload.decoy (zeros 1024)).view = some (.decoy, zeros 1024) := rfl
    obtain ⟨o', pk, h1, h2⟩ : ∃ o' pk, OutboundCipher.At P kL kP (c + 1) o' ∧
        s.ws.writer.cipher.encryptToVec P prof (zeros 1024) .decoy none = (o', .ok pk) := by
      obtain ⟨o', h1, h2⟩ := hat.encryptToVec (prof := prof) hP (by omega) (zeros 1024) .decoy none
      exact ⟨o', _, h1, h2⟩
    cases hx : s.ws.writer.write .sync P prof (.decoy (zeros 1024)) with
    | mk w r =>
    have hr := (write_reliable (f := .sync) hw hx)
    have hok : r = .ok () ∧ w.cipher = o' := by
      have hx' := hx
      rw [Writer.write_eq .sync s.ws.writer hv, h2] at hx'
      cases hsd : s.ws.writer.writer.send Flavour.sync.retry pk with
      | mk w' y =>
      simp only [hsd] at hx'
      cases y with
      | error k =>
        simp only [Prod.mk.injEq] at hx'
        rcases hr.1 with e | e <;> rw [← hx'.2] at e <;> cases e
      | ok u =>
        simp only [Prod.mk.injEq] at hx'
        exact ⟨hx'.2.symm, by rw [← hx'.1]⟩
    obtain ⟨rfl, hcw⟩ := hok
    obtain ⟨b, k1, k2⟩ := write_sent hx
    have hcov : s.ws.cover .sync P prof = (⟨w, s.ws.shaper, s.ws.recorded ++ [1024]⟩, .ok ()) := by
      unfold WriterState.cover
      rw [hdecoy]
      simp only [hx]
    obtain ⟨m, hm⟩ := ShapedSys.bg_round hb hs ho hp hcov
    obtain ⟨m', o, pkts, l2, l3, l4⟩ := ih (c := c + 1)
      (s := { s with ws := ⟨w, s.ws.shaper, s.ws.recorded ++ [1024]⟩ })
      hb hs ho hp hcfg hr.2 (by simp only; rw [hcw]; exact h1) (by omega)
    refine ⟨m + m', o, b ++ pkts, ?_, ?_, ?_⟩
    · rw [List.replicate_succ]
      exact k1.append l2
    · rw [← List.replicate_append_replicate, ShapedSys.run_append, hm]; exact l3
    · rw [← List.replicate_append_replicate, ShapedSys.run_append, hm, l4]
      simp only [k2, List.append_assoc]

/-- C80: how late is not said.  If the thread is not shown the store, it goes on sending: for every `n` (packets the
cipher can still send) there is a run in which `n` whole decoys follow the drop, which still waits for the thread.  So
that a dropped writer stops (C40) needs a memory that shows a store within bounded time, which the language asks of
implementations without a bound. -/
theorem C80_drop_counterexample (hP : Lawful P) {s0 : ShapedSys greedyRng} (h0 : s0.Fresh) (hsh : s0.shutdown = false)
    (hcfg : s0.ws.shaper.config.decoy = .random) (hw : s0.ws.writer.writer.Reliable true)
    {kL kP : Bytes} {c : Nat} (hat : OutboundCipher.At P kL kP c s0.ws.writer.cipher) (n : Nat)
    (hn : c + n < 2 ^ 32) :
    ∃ m o pkts, Sent P prof s0.ws.writer.cipher (List.replicate n (.decoy (zeros 1024))) o pkts ∧
      let t := (RelaxedSys.mk s0 false).run P prof (.sys .drop :: List.replicate m (.sys .bg))
      t.sys.shutdown = true ∧ t.sys.app = .joining ∧ t.sys.ws.writer.writer.out = s0.ws.writer.writer.out ++ pkts := by
  obtain ⟨m, o, pkts, h1, h2, h3⟩ := ShapedSys.decoys_in_row (prof := prof) hP n h0.bg hsh h0.owner h0.poisoned
    hcfg hw hat hn
  refine ⟨m, o, pkts, h1, ?_⟩
  have hd : (RelaxedSys.mk s0 false).step P prof (.sys .drop) =
      ⟨{ s0 with app := .joining, shutdown := true }, false⟩ := by
    simp [RelaxedSys.step, ShapedSys.step, h0.app]
  have hv : (RelaxedSys.mk { s0 with app := .joining, shutdown := true } false).view = s0 := by
    obtain ⟨ws, owner, poisoned, shutdown, app, bg, reader, called, returned, reads0⟩ := s0
    have e2 := h0.app
    simp only at e2 hsh
    subst e2 hsh
    rfl
  have key : ∀ m (t : RelaxedSys greedyRng), t.seen = false →
      (t.run P prof (List.replicate m (.sys .bg))).view = t.view.run P prof (List.replicate m .bg) ∧
      (t.run P prof (List.replicate m (.sys .bg))).sys.shutdown = t.sys.shutdown ∧
      (t.run P prof (List.replicate m (.sys .bg))).sys.app = t.sys.app := by
    intro m
    induction m with
    | zero => intro t _; exact ⟨rfl, rfl, rfl⟩
    | succ m ih =>
      intro t ht
      rw [List.replicate_succ, List.replicate_succ]
      have hst : (t.step P prof (.sys .bg)).seen = false ∧
          (t.step P prof (.sys .bg)).sys.shutdown = t.sys.shutdown ∧
          (t.step P prof (.sys .bg)).sys.app = t.sys.app := by
        obtain ⟨⟨ws, owner, poisoned, shutdown, app, bg, reader, called, returned, reads0⟩, seen⟩ := t
        cases bg with
        | trying =>
          cases owner with
          | some t => exact ⟨ht, rfl, rfl⟩
          | none => cases poisoned <;> exact ⟨ht, rfl, rfl⟩
        | covering pc => cases pc <;> exact ⟨ht, rfl, rfl⟩
        | _ => exact ⟨ht, rfl, rfl⟩
      obtain ⟨i1, i2, i3⟩ := ih _ hst.1
      refine ⟨?_, i2.trans hst.2.1, i3.trans hst.2.2⟩
      rw [RelaxedSys.view_bg] at i1
      exact i1
  obtain ⟨k1, k2, k3⟩ := key m ⟨{ s0 with app := .joining, shutdown := true }, false⟩ rfl
  rw [hv] at k1
  have e : (RelaxedSys.mk s0 false).run P prof (.sys .drop :: List.replicate m (.sys .bg)) =
      (RelaxedSys.mk { s0 with app := .joining, shutdown := true } false).run P prof (List.replicate m (.sys .bg)) := by
    show ((RelaxedSys.mk s0 false).step P prof (.sys .drop)).run P prof _ = _
    rw [hd]
  simp only [e]
  refine ⟨k2, k3, ?_⟩
  have := congrArg (fun s => s.ws.writer.writer.out) k1
  exact this.trans h3

/-- Non-vacuity: two decoys after the drop, and none once the store is seen. -/
example :
    let s0 : ShapedSys greedyRng := .init
      ⟨⟨sampleIn, ⟨[], false, []⟩⟩, ⟨sampleOut, ⟨[], [], []⟩⟩⟩ ⟨⟨.disabled, .random⟩, ()⟩ []
    let t0 : RelaxedSys greedyRng := ⟨s0, false⟩
    let ls := RelaxedLabel.sys .drop :: List.replicate 18 (.sys .bg)
    (t0.run toy .debug ls).sys.shutdown = true ∧ (t0.run toy .debug ls).seen = false ∧
      (t0.run toy .debug ls).sys.ws.writer.writer.out.length = 2088 ∧
      (t0.run toy .debug (ls ++ .visible :: List.replicate 18 (.sys .bg))).sys.ws.writer.writer.out.length = 2088 ∧
      (t0.run toy .debug (ls ++ .visible :: (List.replicate 18 (.sys .bg) ++ [.sys .app]))).sys.app = .gone := by
  exact ⟨by decide +kernel, by decide +kernel, by decide +kernel, by decide +kernel, by decide +kernel⟩

end Bip324
