import Verif.Model.Traffic

/-!
# C39: the statistics under concurrency

Threads call the recording methods; the atomic operations of the calls are interleaved arbitrarily.
The specification speaks only about the calls.
-/

namespace Bip324

/-- `ops` is an execution of the threads `ts`: in each step one thread performs its next operation;
`rest` is what the threads have still to do. -/
inductive Executes {α : Type} : List (List α) → List α → List (List α) → Prop
  | stop (ts : List (List α)) : Executes ts [] ts
  | step {a b : List (List α)} {op : α} {t ops : List α} {rest : List (List α)} :
      Executes (a ++ t :: b) ops rest → Executes (a ++ (op :: t) :: b) (op :: ops) rest

/-- The operations of a thread: its calls in order, each with the clock it saw. -/
def threadOps (th : List (RecordCall × Nat)) : List AtomicOp := th.flatMap (fun c => c.1.ops c.2)

/-- What a call says was read. -/
def RecordCall.bytesIn : RecordCall → Nat
  | .read n => n
  | .write _ => 0

/-- What a call says was written. -/
def RecordCall.bytesOut : RecordCall → Nat
  | .read _ => 0
  | .write n => n

/-- Is it a call of `record_read`? -/
def RecordCall.isRead : RecordCall → Bool
  | .read _ => true
  | .write _ => false

/-- The sum of a list. -/
def total (l : List Nat) : Nat := l.foldr (· + ·) 0

theorem total_append (a b : List Nat) : total (a ++ b) = total a + total b := by
  induction a with
  | nil => simp [total]
  | cons x a ih => simp only [total, List.cons_append, List.foldr_cons] at ih ⊢; omega

theorem Executes.conserves {α : Type} (f : α → Nat) {ts rest : List (List α)} {ops : List α}
    (h : Executes ts ops rest) :
    total (ts.flatten.map f) = total (ops.map f) + total (rest.flatten.map f) := by
  induction h with
  | stop ts => simp [total]
  | @step a b op t ops rest _ ih =>
    simp only [List.flatten_append, List.flatten_cons, List.map_append, total_append, List.map_cons] at ih ⊢
    simp only [total, List.foldr_cons, List.cons_append, List.map_cons, List.foldr_append] at ih ⊢
    have : ∀ x l, total (x :: l) = x + total l := fun _ _ => rfl
    simp only [total, List.foldr_cons] at this
    omega

theorem Executes.mem {α : Type} {ts rest : List (List α)} {ops : List α}
    (h : Executes ts ops rest) {x : α} (hx : x ∈ ops) : x ∈ ts.flatten := by
  induction h with
  | stop ts => cases hx
  | @step a b op t ops rest _ ih =>
    rcases List.mem_cons.1 hx with rfl | hx
    · simp
    · have := ih hx
      simp only [List.flatten_append, List.flatten_cons, List.mem_append] at this ⊢
      rcases this with h | h | h
      · exact .inl h
      · exact .inr (.inl (List.mem_cons_of_mem _ h))
      · exact .inr (.inr h)

/-- What an operation adds to each counter. -/
def AtomicOp.toBytesRead : AtomicOp → Nat
  | .addBytesRead n => n
  | _ => 0

@[inherit_doc AtomicOp.toBytesRead]
def AtomicOp.toBytesWritten : AtomicOp → Nat
  | .addBytesWritten n => n
  | _ => 0

@[inherit_doc AtomicOp.toBytesRead]
def AtomicOp.toMessagesRead : AtomicOp → Nat
  | .addMessagesRead n => n
  | _ => 0

@[inherit_doc AtomicOp.toBytesRead]
def AtomicOp.toMessagesWritten : AtomicOp → Nat
  | .addMessagesWritten n => n
  | _ => 0

/-- The counters are `u64`s. -/
structure Stats.InRange (s : Stats) : Prop where
  bytesRead : s.bytesRead < u64Mod
  bytesWritten : s.bytesWritten < u64Mod
  messagesRead : s.messagesRead < u64Mod
  messagesWritten : s.messagesWritten < u64Mod

theorem u64_pos : 0 < u64Mod := by decide

theorem Stats.InRange.apply {s : Stats} (h : s.InRange) (op : AtomicOp) : (s.apply op).InRange := by
  obtain ⟨h1, h2, h3, h4⟩ := h
  cases op <;> exact ⟨by first | exact h1 | exact Nat.mod_lt _ u64_pos,
    by first | exact h2 | exact Nat.mod_lt _ u64_pos, by first | exact h3 | exact Nat.mod_lt _ u64_pos,
    by first | exact h4 | exact Nat.mod_lt _ u64_pos⟩

/-- After any sequence of operations each counter is the sum of what was added to it. -/
theorem Stats.fold {s : Stats} (hs : s.InRange) (ops : List AtomicOp) :
    (ops.foldl Stats.apply s).InRange ∧
    (ops.foldl Stats.apply s).bytesRead = (s.bytesRead + total (ops.map AtomicOp.toBytesRead)) % u64Mod ∧
    (ops.foldl Stats.apply s).bytesWritten =
      (s.bytesWritten + total (ops.map AtomicOp.toBytesWritten)) % u64Mod ∧
    (ops.foldl Stats.apply s).messagesRead =
      (s.messagesRead + total (ops.map AtomicOp.toMessagesRead)) % u64Mod ∧
    (ops.foldl Stats.apply s).messagesWritten =
      (s.messagesWritten + total (ops.map AtomicOp.toMessagesWritten)) % u64Mod := by
  induction ops generalizing s with
  | nil =>
    refine ⟨hs, ?_, ?_, ?_, ?_⟩ <;> simp only [List.foldl_nil, List.map_nil, total, List.foldr_nil, Nat.add_zero]
    · exact (Nat.mod_eq_of_lt hs.bytesRead).symm
    · exact (Nat.mod_eq_of_lt hs.bytesWritten).symm
    · exact (Nat.mod_eq_of_lt hs.messagesRead).symm
    · exact (Nat.mod_eq_of_lt hs.messagesWritten).symm
  | cons op ops ih =>
    obtain ⟨h0, h1, h2, h3, h4⟩ := ih (hs.apply op)
    have tc : ∀ x l, total (x :: l) = x + total l := fun _ _ => rfl
    refine ⟨h0, ?_, ?_, ?_, ?_⟩
    · simp only [List.foldl_cons, List.map_cons, tc]
      rw [h1]
      cases op <;> simp [Stats.apply, AtomicOp.toBytesRead, Nat.mod_add_mod, Nat.add_assoc]
    · simp only [List.foldl_cons, List.map_cons, tc]
      rw [h2]
      cases op <;> simp [Stats.apply, AtomicOp.toBytesWritten, Nat.mod_add_mod, Nat.add_assoc]
    · simp only [List.foldl_cons, List.map_cons, tc]
      rw [h3]
      cases op <;> simp [Stats.apply, AtomicOp.toMessagesRead, Nat.mod_add_mod, Nat.add_assoc]
    · simp only [List.foldl_cons, List.map_cons, tc]
      rw [h4]
      cases op <;> simp [Stats.apply, AtomicOp.toMessagesWritten, Nat.mod_add_mod, Nat.add_assoc]

theorem new_inRange {clock : Int} {s : Stats} (h : Stats.new clock = some s) :
    s.InRange ∧ s.bytesRead = 0 ∧ s.bytesWritten = 0 ∧ s.messagesRead = 0 ∧ s.messagesWritten = 0 := by
  unfold Stats.new at h
  split at h
  · cases h
  · cases h
    exact ⟨⟨u64_pos, u64_pos, u64_pos, u64_pos⟩, rfl, rfl, rfl, rfl⟩

/-- What the operations of all calls add up to. -/
theorem ops_total (f : AtomicOp → Nat) (g : RecordCall → Nat)
    (hfg : ∀ c now, total ((c.ops now).map f) % u64Mod = g c % u64Mod)
    (ts : List (List (RecordCall × Nat))) :
    total ((ts.map threadOps).flatten.map f) % u64Mod =
      total (ts.flatten.map (fun c => g c.1)) % u64Mod := by
  have one : ∀ th : List (RecordCall × Nat),
      total ((threadOps th).map f) % u64Mod = total (th.map (fun c => g c.1)) % u64Mod := by
    intro th
    induction th with
    | nil => rfl
    | cons c th ih =>
      have e1 : (threadOps (c :: th)).map f = (c.1.ops c.2).map f ++ (threadOps th).map f := by
        simp [threadOps]
      have e2 : total ((c :: th).map (fun c => g c.1)) = g c.1 + total (th.map (fun c => g c.1)) := rfl
      rw [e1, e2, total_append, Nat.add_mod, ih, hfg, ← Nat.add_mod]
  induction ts with
  | nil => rfl
  | cons th ts ih =>
    simp only [List.map_cons, List.flatten_cons, List.map_append, total_append]
    rw [Nat.add_mod, ih, one, ← Nat.add_mod]

theorem flatten_of_finished {α : Type} {rest : List (List α)} (h : ∀ t ∈ rest, t = []) :
    rest.flatten = [] := by
  induction rest with
  | nil => rfl
  | cons t rest ih =>
    rw [List.flatten_cons, h t (by simp), ih (fun x hx => h x (by simp [hx]))]; rfl

/-- C39.  However the threads are interleaved, when their calls have returned the totals are the sums,
modulo `2^64`, over all calls; and the last activity is the time one of the calls saw (or that of the
creation). -/
theorem C39_totals {clock : Int} {s : Stats} (hs : Stats.new clock = some s)
    {ts : List (List (RecordCall × Nat))} {ops : List AtomicOp} {rest : List (List AtomicOp)}
    (h : Executes (ts.map threadOps) ops rest) (hdone : ∀ t ∈ rest, t = []) :
    (ops.foldl Stats.apply s).bytesRead = total (ts.flatten.map (fun c => c.1.bytesIn)) % 2 ^ 64 ∧
    (ops.foldl Stats.apply s).bytesWritten = total (ts.flatten.map (fun c => c.1.bytesOut)) % 2 ^ 64 ∧
    (ops.foldl Stats.apply s).messagesRead = ts.flatten.countP (fun c => c.1.isRead) % 2 ^ 64 ∧
    (ops.foldl Stats.apply s).messagesWritten = ts.flatten.countP (fun c => !c.1.isRead) % 2 ^ 64 := by
  obtain ⟨h0, z1, z2, z3, z4⟩ := new_inRange hs
  obtain ⟨-, f1, f2, f3, f4⟩ := Stats.fold h0 ops
  have hc : ∀ f, total (ops.map f) = total ((ts.map threadOps).flatten.map f) := by
    intro f
    have := h.conserves f
    rw [flatten_of_finished hdone] at this
    simpa [total] using this.symm
  have cnt : ∀ (p : RecordCall → Bool) (l : List (RecordCall × Nat)),
      total (l.map (fun c => if p c.1 then 1 else 0)) = l.countP (fun c => p c.1) := by
    intro p l
    induction l with
    | nil => rfl
    | cons c l ih =>
      rw [List.countP_cons, ← ih, List.map_cons]
      simp only [total, List.foldr_cons]
      omega
  refine ⟨?_, ?_, ?_, ?_⟩
  · rw [f1, z1, Nat.zero_add, hc]
    refine ops_total _ RecordCall.bytesIn ?_ ts
    intro c now
    cases c <;> simp [RecordCall.ops, AtomicOp.toBytesRead, RecordCall.bytesIn, total]
  · rw [f2, z2, Nat.zero_add, hc]
    refine ops_total _ RecordCall.bytesOut ?_ ts
    intro c now
    cases c <;> simp [RecordCall.ops, AtomicOp.toBytesWritten, RecordCall.bytesOut, total]
  · rw [f3, z3, Nat.zero_add, hc, ← cnt RecordCall.isRead]
    refine ops_total _ (fun c => if c.isRead then 1 else 0) ?_ ts
    intro c now
    cases c <;> simp [RecordCall.ops, AtomicOp.toMessagesRead, RecordCall.isRead, total]
  · rw [f4, z4, Nat.zero_add, hc, ← cnt (fun c => !c.isRead)]
    refine ops_total _ (fun c => if !c.isRead then 1 else 0) ?_ ts
    intro c now
    cases c <;> simp [RecordCall.ops, AtomicOp.toMessagesWritten, RecordCall.isRead, total]

/-- C39: at every moment the last activity is the time of creation or a time one of the calls saw. -/
theorem C39_last_activity (s : Stats) {ts : List (List (RecordCall × Nat))} {ops : List AtomicOp}
    {rest : List (List AtomicOp)} (h : Executes (ts.map threadOps) ops rest) :
    (ops.foldl Stats.apply s).lastActivityMs = s.lastActivityMs ∨
      ∃ c ∈ ts.flatten, (ops.foldl Stats.apply s).lastActivityMs = c.2 := by
  have gen : ∀ (ops : List AtomicOp) (s : Stats),
      (ops.foldl Stats.apply s).lastActivityMs = s.lastActivityMs ∨
      .storeLastActivity (ops.foldl Stats.apply s).lastActivityMs ∈ ops := by
    intro ops
    induction ops with
    | nil => intro s; exact .inl rfl
    | cons op ops ih =>
      intro s
      rcases ih (s.apply op) with h | h
      · cases op with
        | storeLastActivity ms =>
          refine .inr ?_
          rw [List.foldl_cons, h]
          exact List.mem_cons_self
        | _ => exact .inl h
      · exact .inr (List.mem_cons_of_mem _ h)
  rcases gen ops s with h' | h'
  · exact .inl h'
  · refine .inr ?_
    have := h.mem h'
    simp only [List.mem_flatten, List.mem_map] at this
    obtain ⟨_, ⟨th, hth, rfl⟩, hm⟩ := this
    obtain ⟨c, hc, hm⟩ := List.mem_flatMap.1 hm
    refine ⟨c, List.mem_flatten.2 ⟨th, hth, hc⟩, ?_⟩
    obtain ⟨c, now⟩ := c
    cases c <;> simpa [RecordCall.ops] using hm

theorem le_total {l : List Nat} {x : Nat} (h : x ∈ l) : x ≤ total l := by
  induction l with
  | nil => cases h
  | cons y l ih =>
    simp only [total, List.foldr_cons] at ih ⊢
    rcases List.mem_cons.1 h with rfl | h
    · omega
    · have := ih h; omega

theorem total_eq_zero {l : List Nat} : total l = 0 ↔ ∀ x ∈ l, x = 0 := by
  constructor
  · intro h x hx
    have := le_total hx
    omega
  · intro h
    induction l with
    | nil => rfl
    | cons y l ih =>
      have h1 := h y (by simp)
      have h2 := ih (fun x hx => h x (by simp [hx]))
      simp only [total, List.foldr_cons] at h2 ⊢
      omega

/-- The operations of the calls add at most what the calls say. -/
theorem ops_total_le (ts : List (List (RecordCall × Nat))) :
    total ((ts.map threadOps).flatten.map AtomicOp.toBytesRead) ≤
      total (ts.flatten.map (fun c => c.1.bytesIn)) := by
  have one : ∀ th : List (RecordCall × Nat),
      total ((threadOps th).map AtomicOp.toBytesRead) ≤ total (th.map (fun c => c.1.bytesIn)) := by
    intro th
    induction th with
    | nil => exact Nat.le_refl _
    | cons c th ih =>
      have e1 : (threadOps (c :: th)).map AtomicOp.toBytesRead =
          (c.1.ops c.2).map AtomicOp.toBytesRead ++ (threadOps th).map AtomicOp.toBytesRead := by
        simp [threadOps]
      have e2 : total ((c :: th).map (fun c => c.1.bytesIn)) =
          c.1.bytesIn + total (th.map (fun c => c.1.bytesIn)) := rfl
      rw [e1, e2, total_append]
      have : total ((c.1.ops c.2).map AtomicOp.toBytesRead) ≤ c.1.bytesIn := by
        obtain ⟨c, now⟩ := c
        cases c with
        | read n =>
          have := Nat.mod_le n u64Mod
          simpa [RecordCall.ops, AtomicOp.toBytesRead, RecordCall.bytesIn, total] using this
        | write n => simp [RecordCall.ops, AtomicOp.toBytesRead, RecordCall.bytesIn, total]
      omega
  induction ts with
  | nil => exact Nat.le_refl _
  | cons th ts ih =>
    have := one th
    simp only [List.map_cons, List.flatten_cons, List.map_append, total_append]
    omega

theorem Executes.prefix {α : Type} {ts rest : List (List α)} {ops1 ops2 : List α}
    (h : Executes ts (ops1 ++ ops2) rest) : ∃ mid, Executes ts ops1 mid := by
  induction ops1 generalizing ts with
  | nil => exact ⟨ts, .stop ts⟩
  | cons op ops ih =>
    rw [List.cons_append] at h
    generalize ho : op :: (ops ++ ops2) = o at h
    cases h with
    | stop => cases ho
    | step h =>
      cases ho
      obtain ⟨mid, hm⟩ := ih h
      exact ⟨mid, .step hm⟩

/-- C39: `write_read_ratio` loads the bytes read after the operations `ops1` and the bytes written later,
after `ops2`; it gives `None` iff no bytes had been added when it looked — as long as fewer than `2^64`
bytes are read in all (see `C39_ratio_counterexample`). -/
theorem C39_ratio_partial {clock : Int} {s : Stats} (hs : Stats.new clock = some s)
    {ts : List (List (RecordCall × Nat))} {ops1 ops2 : List AtomicOp} {rest : List (List AtomicOp)}
    (h : Executes (ts.map threadOps) (ops1 ++ ops2) rest)
    (hlt : total (ts.flatten.map (fun c => c.1.bytesIn)) < 2 ^ 64) :
    (ratio (ops1.foldl Stats.apply s).bytesRead ((ops1 ++ ops2).foldl Stats.apply s).bytesWritten = none ↔
      ∀ n, .addBytesRead n ∈ ops1 → n = 0) := by
  obtain ⟨mid, hm⟩ := h.prefix
  have hle := hm.conserves AtomicOp.toBytesRead
  have hle2 := ops_total_le ts
  obtain ⟨h0, z1, -⟩ := new_inRange hs
  obtain ⟨-, f1, -⟩ := Stats.fold h0 ops1
  rw [f1, z1, Nat.zero_add]
  have : total (ops1.map AtomicOp.toBytesRead) % u64Mod = total (ops1.map AtomicOp.toBytesRead) :=
    Nat.mod_eq_of_lt (by unfold u64Mod; omega)
  rw [this]
  have h2 : total (ops1.map AtomicOp.toBytesRead) = 0 ↔ ∀ n, .addBytesRead n ∈ ops1 → n = 0 := by
    rw [total_eq_zero]
    constructor
    · intro h n hn
      exact h n (List.mem_map.2 ⟨_, hn, rfl⟩)
    · intro h x hx
      obtain ⟨op, hop, rfl⟩ := List.mem_map.1 hx
      cases op with
      | addBytesRead n => exact h n hop
      | _ => rfl
  rw [← h2]
  unfold ratio
  split <;> simp_all

/-- C39: when all calls have returned, `None` iff the sum over the calls is a multiple of `2^64`; the
ratio is otherwise that of the two sums. -/
theorem C39_ratio {clock : Int} {s : Stats} (hs : Stats.new clock = some s)
    {ts : List (List (RecordCall × Nat))} {ops : List AtomicOp} {rest : List (List AtomicOp)}
    (h : Executes (ts.map threadOps) ops rest) (hdone : ∀ t ∈ rest, t = []) :
    ratio (ops.foldl Stats.apply s).bytesRead (ops.foldl Stats.apply s).bytesWritten =
      if total (ts.flatten.map (fun c => c.1.bytesIn)) % 2 ^ 64 = 0 then none
      else some (total (ts.flatten.map (fun c => c.1.bytesOut)) % 2 ^ 64,
        total (ts.flatten.map (fun c => c.1.bytesIn)) % 2 ^ 64) := by
  obtain ⟨h1, h2, -⟩ := C39_totals hs h hdone
  rw [h1, h2]
  rfl

/-- After two reads of `2^63` bytes the ratio is `None` although bytes have been read. -/
theorem C39_ratio_counterexample : ∃ s ops rest, Stats.new 5 = some s ∧
    Executes ([[(.read (2 ^ 63), 7)], [(.read (2 ^ 63), 8)]].map threadOps) ops rest ∧
    (∀ t ∈ rest, t = []) ∧
    ratio (ops.foldl Stats.apply s).bytesRead (ops.foldl Stats.apply s).bytesWritten = none := by
  refine ⟨⟨0, 0, 0, 0, 5⟩, [.addBytesRead (2 ^ 63), .addMessagesRead 1, .storeLastActivity 7,
    .addBytesRead (2 ^ 63), .addMessagesRead 1, .storeLastActivity 8], [[], []], by decide, ?_, by simp,
    by decide⟩
  have e : ([[(.read (2 ^ 63), 7)], [(.read (2 ^ 63), 8)]].map threadOps) =
      [[.addBytesRead (2 ^ 63), .addMessagesRead 1, .storeLastActivity 7],
       [.addBytesRead (2 ^ 63), .addMessagesRead 1, .storeLastActivity 8]] := by decide
  rw [e]
  exact .step (a := []) (.step (a := []) (.step (a := []) (.step (a := [[]]) (b := [])
    (.step (a := [[]]) (b := []) (.step (a := [[]]) (b := []) (.stop _))))))

/-- C39: the time since the last activity is never negative: it is the difference, or zero when the
clock has gone back.  (No result when the clock is before 1970.) -/
theorem C39_time (s : Stats) {clock : Int} (hc : 0 ≤ clock) (hb : clock < 2 ^ 64) :
    ∃ d, s.timeSinceLastActivity clock = some d ∧ (d : Int) = max 0 (clock - s.lastActivityMs) := by
  have h1 : ¬ clock < 0 := by omega
  have h2 : clock.toNat % u64Mod = clock.toNat := Nat.mod_eq_of_lt (by unfold u64Mod; omega)
  refine ⟨clock.toNat - s.lastActivityMs, ?_, by omega⟩
  unfold Stats.timeSinceLastActivity nowMs
  rw [if_neg h1, h2]

/-- Non-vacuity of `C39_totals`: two threads, truly interleaved; the later store is of the earlier time. -/
example : ∃ s ops rest, Stats.new 5 = some s ∧
    Executes ([[(.read 100, 7), (.write 3, 9)], [(.read 11, 8)]].map threadOps) ops rest ∧
    (∀ t ∈ rest, t = []) ∧ ops.foldl Stats.apply s = ⟨111, 3, 2, 1, 8⟩ := by
  refine ⟨⟨0, 0, 0, 0, 5⟩, [.addBytesRead 100, .addBytesRead 11, .addMessagesRead 1, .storeLastActivity 7,
    .addMessagesRead 1, .addBytesWritten 3, .addMessagesWritten 1, .storeLastActivity 9,
    .storeLastActivity 8], [[], []], by decide, ?_, by simp, by decide⟩
  have e : ([[(.read 100, 7), (.write 3, 9)], [(.read 11, 8)]].map threadOps) =
      [[.addBytesRead 100, .addMessagesRead 1, .storeLastActivity 7, .addBytesWritten 3,
        .addMessagesWritten 1, .storeLastActivity 9],
       [.addBytesRead 11, .addMessagesRead 1, .storeLastActivity 8]] := by decide
  rw [e]
  exact .step (a := []) (.step (a := [_]) (b := []) (.step (a := []) (.step (a := [])
    (.step (a := [_]) (b := []) (.step (a := []) (.step (a := []) (.step (a := [])
    (.step (a := [_]) (b := []) (.stop _)))))))))

end Bip324
