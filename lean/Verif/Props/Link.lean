import Verif.Lemmas.Link
import Verif.Spec.Toy
import Verif.Props.Bounded

/-!
# C71: two connected parties over channels of limited capacity

Two parties hold the two ends of a connection after their handshakes (`Verif/Spec/Link.lean`).  A call that writes blocks
while the channel is full, and a call that reads blocks while there is nothing to read.  Whatever the capacities, the sizes
in which bytes are moved and the order in which the threads run:

* What has been read is a prefix of what has been written (`C71_prefix`).
* Only finitely many steps are possible (`C71_finite`); so the parties finish or get stuck.
* If one of the parties reads and writes on two threads, which is what `into_split` is for, the parties never get stuck
  (`C71_split`), and neither do they if each reads when the other writes (`C71_dual`).
* Two parties that first write everything and then read get stuck exactly if what each writes is more than its channel
  holds (`C71_exchange`): no call fails, and both wait for ever.
-/

namespace Bip324

variable {P : Prims} {prof : Profile}

/-! ## The statement -/

/-- One direction: the keys and the number of the next packet that the reader expects, the payloads whose packets have been
written and not read, and those that are to be written. -/
structure Flow where
  kL : Bytes
  kP : Bytes
  number : Nat
  onTheWay : List Payload
  todo : List Payload

/-- All that is to be read. -/
def Flow.all (f : Flow) : List Payload := f.onTheWay ++ f.todo

/-- Before the first call: the ciphers are those of the direction, and what is on the way is in the channel or in the
reader's buffer. -/
structure Flow.Begins (P : Prims) (f : Flow) (cap : Nat) (w r : LinkEnd) : Prop where
  writer : w.halves.out.At P f.kL f.kP (f.number + f.onTheWay.length)
  reader : ∃ o : OutboundCipher, o.At P f.kL f.kP f.number ∧ Matching o r.halves.half.cipher
  stream : r.halves.half.held ++ w.halves.run.net.1 = payloadStream P f.kL f.kP f.number f.onTheWay
  room : w.halves.run.net.1.length ≤ cap
  noWrite : w.halves.wr = none
  noRead : r.halves.half.pc = .idle
  wrote : w.halves.wrote = []
  reads : r.halves.reads = []
  todo : w.todo = f.todo
  left : r.left = f.all.length
  readable : ∀ p ∈ f.all, p.Readable
  count : f.number + f.all.length < 2 ^ 32

/-- Both directions, and programs that write all that is to be written and read all that is to be read. -/
structure Link.Begins (S : LinkSetup) (P : Prims) (fA fB : Flow) (s : Link) : Prop where
  ab : fA.Begins P S.capA s.a s.b
  ba : fB.Begins P S.capB s.b s.a
  net : s.b.halves.run.net = s.a.halves.run.net.swap
  orderA : S.orderA.Fits fA.todo.length fB.all.length
  orderB : S.orderB.Fits fB.todo.length fA.all.length

/-- Everything has been written, every call has returned without an error, every payload has been read, in order, and no
byte is left over. -/
structure Flow.Delivered (f : Flow) (w r : LinkEnd) : Prop where
  noWrite : w.halves.wr = none
  noRead : r.halves.half.pc = .idle
  todo : w.todo = []
  left : r.left = 0
  wrote : w.halves.wrote = f.todo.map fun p => (p, .done (.ok ()))
  reads : r.halves.reads = f.all.map fun p => .ok p.received
  empty : r.halves.half.held ++ w.halves.run.net.1 = []

/-- How many steps a direction takes at most. -/
def Flow.steps (f : Flow) : Nat :=
  (f.todo.map fun p => (p.contents.getD []).length + 25).sum + (f.all.map fun p => (p.contents.getD []).length + 24).sum

/-! ## The invariant -/

/-- The party is where its program can be. -/
def Follows (o : Order) (w r : Nat) (e : LinkEnd) : Prop :=
  o = .split ∨ ∃ calls : List IoCall, o = .sequence calls ∧ calls.count .write = w ∧ calls.count .read = r ∧ InOrder calls e

/-- The invariant of all runs; `n` bounds the steps that are left. -/
structure Link.Inv (S : LinkSetup) (P : Prims) (prof : Profile) (fA fB : Flow) (s : Link) (n : Nat) : Prop where
  net : s.b.halves.run.net = s.a.halves.run.net.swap
  lanes : ∃ n₁ n₂, Lane P prof fA.kL fA.kP fA.todo fA.all fA.number s.a s.b n₁ ∧
    Lane P prof fB.kL fB.kP fB.todo fB.all fB.number s.b s.a n₂ ∧ n = n₁ + n₂
  capA : s.a.halves.run.net.1.length ≤ S.capA
  capB : s.b.halves.run.net.1.length ≤ S.capB
  orderA : Follows S.orderA fA.todo.length fB.all.length s.a
  orderB : Follows S.orderB fB.todo.length fA.all.length s.b

theorem Flow.Begins.lane (hP : Lawful P) {f : Flow} {cap : Nat} {w r : LinkEnd} (h : f.Begins P cap w r) :
    Lane P prof f.kL f.kP f.todo f.all f.number w r f.steps := by
  have hlen : f.all.length = f.onTheWay.length + f.todo.length := by rw [Flow.all, List.length_append]
  obtain ⟨o, ho, hm⟩ := h.reader
  refine ⟨_, payloadStream P f.kL f.kP (f.number + f.onTheWay.length) f.todo, [], [], f.all, ⟨h.writer, ?_, ?_, ?_⟩, ?_, ?_, rfl,
    ?_, ?_, ?_, h.readable, h.count, ?_⟩
  · rw [h.todo]
    exact fun p hp => h.readable p (by simp [Flow.all, hp])
  · have := h.count
    rw [h.todo]; omega
  · rw [h.noWrite, h.todo]
  · rw [h.wrote]; rfl
  · rw [h.noWrite, h.todo]; rfl
  · rw [h.reads]; rfl
  · unfold ReaderAt
    rw [h.noRead]
    exact ⟨o, ho, hm, by rw [h.stream, ← payloadStream_append]; rfl⟩
  · rw [h.noRead, h.left]; simp
  · rw [h.stream, ← payloadStream_append, payloadStream_length hP, h.noWrite, h.noRead, h.todo, h.left]
    simp only [writeCost, readCost, Flow.steps]
    have : ∀ ps : List Payload, (ps.map fun p => (p.contents.getD []).length + 24).sum = wireSize ps + 4 * ps.length := by
      intro ps
      induction ps with
      | nil => rfl
      | cons p ps ih => simp only [wireSize, List.map_cons, List.sum_cons, List.length_cons] at ih ⊢; omega
    rw [this]
    show _ = (List.map Payload.cost f.todo).sum + 0 + wireSize (f.onTheWay ++ f.todo) + _
    have hc : (fun p : Payload => (p.contents.getD []).length + 25) = Payload.cost := rfl
    simp only [Flow.all, hc]
    omega

theorem Order.Fits.follows {o : Order} {w r : Nat} {e : LinkEnd} (h : o.Fits w r) (h1 : e.halves.wr = none)
    (h2 : e.halves.half.pc = .idle) (h3 : e.halves.wrote = []) (h4 : e.halves.reads = []) : Follows o w r e := by
  rcases h with h | ⟨calls, h, i1, i2⟩
  · exact .inl h
  · refine .inr ⟨calls, h, i1, i2, ?_, ?_, ?_, ?_⟩
    · intro h; rw [h1] at h; cases h
    · intro h; exact absurd h2 h
    · simp [h3, h4]
    · simp [h3, h4]

theorem Link.Begins.inv (hP : Lawful P) {S : LinkSetup} {fA fB : Flow} {s : Link} (h : s.Begins S P fA fB) :
    s.Inv S P prof fA fB (fA.steps + fB.steps) :=
  ⟨h.net, ⟨_, _, h.ab.lane hP, h.ba.lane hP, rfl⟩, h.ab.room, h.ba.room,
    h.orderA.follows h.ab.noWrite h.ba.noRead h.ab.wrote h.ba.reads,
    h.orderB.follows h.ba.noWrite h.ab.noRead h.ba.wrote h.ab.reads⟩

theorem Follows.step {o : Order} {w r : Nat} {e : LinkEnd} (h : Follows o w r e) (cap k : Nat) (c : IoCall) :
    Follows o w r (e.step o cap k P prof c) := by
  rcases h with rfl | ⟨calls, rfl, h1, h2, h3⟩
  · exact .inl rfl
  · exact .inr ⟨calls, rfl, h1, h2, h3.step cap k c⟩

theorem Follows.sees {o : Order} {w r : Nat} {e : LinkEnd} (h : Follows o w r e) (s : Bytes × Bytes) :
    Follows o w r (e.sees s) := h

/-- A step keeps the invariant; if it does something, less is left to be done. -/
theorem Link.Inv.step (hP : Lawful P) {S : LinkSetup} {fA fB : Flow} {s : Link} {n : Nat} (h : s.Inv S P prof fA fB n)
    (l : LinkLabel) :
    s.step S P prof l = s ∨ (s.step S P prof l ≠ s ∧ ∃ n', n' < n ∧ (s.step S P prof l).Inv S P prof fA fB n') := by
  obtain ⟨n₁, n₂, hA, hB, rfl⟩ := h.lanes
  cases hl : l.ofA with
  | true =>
    have e0 : s.step S P prof l = ⟨s.a.step S.orderA S.capA l.k P prof l.call,
        s.b.sees (s.a.step S.orderA S.capA l.k P prof l.call).halves.run.net.swap⟩ := by
      simp [Link.step, hl]
    rcases end_step (o := S.orderA) (cap := S.capA) (k := l.k) hP h.net hA hB l.call with
      ⟨h1, h2, -⟩ | ⟨e', n₁', n₂', h1, h2, h3, h4, h5, h6, h7, -⟩
    · left
      rw [e0, h1, h2]
    · right
      have hf := h.orderA.step (P := P) (prof := prof) S.capA l.k l.call
      rw [e0, h1] at *
      refine ⟨fun hc => h2 (by rw [← hc]), _, h5, rfl, ⟨_, _, h3, h4, rfl⟩, ?_, ?_, hf, h.orderB.sees _⟩
      · rcases h6 with h6 | h6
        · exact h6 ▸ h.capA
        · exact h6
      · have := h.capB
        rw [h.net] at this
        exact Nat.le_trans h7 this
  | false =>
    have e0 : s.step S P prof l = ⟨s.a.sees (s.b.step S.orderB S.capB l.k P prof l.call).halves.run.net.swap,
        s.b.step S.orderB S.capB l.k P prof l.call⟩ := by
      simp [Link.step, hl]
    have hnet : s.a.halves.run.net = s.b.halves.run.net.swap := by rw [h.net]; rfl
    rcases end_step (o := S.orderB) (cap := S.capB) (k := l.k) hP hnet hB hA l.call with
      ⟨h1, h2, -⟩ | ⟨e', n₁', n₂', h1, h2, h3, h4, h5, h6, h7, -⟩
    · left
      rw [e0, h1, h2]
    · right
      have hf := h.orderB.step (P := P) (prof := prof) S.capB l.k l.call
      rw [e0, h1] at *
      refine ⟨fun hc => h2 (by rw [← hc]), _, by rw [Nat.add_comm n₁]; exact h5, rfl, ⟨_, _, h4, h3, Nat.add_comm _ _⟩, ?_, ?_,
        h.orderA.sees _, hf⟩
      · have := h.capA
        rw [hnet] at this
        exact Nat.le_trans h7 this
      · rcases h6 with h6 | h6
        · exact h6 ▸ h.capB
        · exact h6

theorem Link.Inv.run (hP : Lawful P) {S : LinkSetup} {fA fB : Flow} (ls : List LinkLabel) {s : Link} {n : Nat}
    (h : s.Inv S P prof fA fB n) : ∃ n', n' ≤ n ∧ (s.run S P prof ls).Inv S P prof fA fB n' ∧
      (s.Busy S P prof ls → ls.length + n' ≤ n) := by
  induction ls generalizing s n with
  | nil => exact ⟨n, Nat.le_refl _, h, fun _ => by simp⟩
  | cons l ls ih =>
    rcases h.step hP l with h1 | ⟨h1, n', h2, h3⟩
    · obtain ⟨m, i1, i2, i3⟩ := ih h
      refine ⟨m, i1, ?_, fun hb => absurd h1 hb.1⟩
      show (Link.run S P prof (s.step S P prof l) ls).Inv S P prof fA fB m
      rw [h1]; exact i2
    · obtain ⟨m, i1, i2, i3⟩ := ih h3
      refine ⟨m, by omega, i2, fun hb => ?_⟩
      have := i3 hb.2
      rw [List.length_cons]; omega

/-! ## Safety and termination -/

/-- **C71_prefix.**  At every point of every run: what a party has read is a prefix of what the other has written, each
payload with its type and its contents; no call has failed; the channels hold no more than they can; and a party has read
no more than the other has begun to write. -/
theorem C71_prefix (hP : Lawful P) {S : LinkSetup} {fA fB : Flow} {s : Link} (h : s.Begins S P fA fB) (ls : List LinkLabel)
    {s' : Link} (hs : s.run S P prof ls = s') :
    s'.b.halves.reads <+: fA.all.map (fun p => .ok p.received) ∧ s'.a.halves.reads <+: fB.all.map (fun p => .ok p.received) ∧
    s'.a.halves.wrote <+: fA.todo.map (fun p => (p, .done (.ok ()))) ∧
    s'.b.halves.wrote <+: fB.todo.map (fun p => (p, .done (.ok ()))) ∧
    s'.a.halves.run.net.1.length ≤ S.capA ∧ s'.b.halves.run.net.1.length ≤ S.capB ∧
    s'.b.halves.run.net = s'.a.halves.run.net.swap ∧
    s'.b.halves.reads.length ≤ fA.onTheWay.length + s'.a.halves.wrote.length + s'.a.halves.wr.toList.length ∧
    s'.a.halves.reads.length ≤ fB.onTheWay.length + s'.b.halves.wrote.length + s'.b.halves.wr.toList.length := by
  subst hs
  obtain ⟨n, -, hi, -⟩ := (h.inv (prof := prof) hP).run hP ls
  obtain ⟨n₁, n₂, hA, hB, -⟩ := hi.lanes
  have key : ∀ {kL kP : Bytes} {pre ws : List Payload} {j m : Nat} {w r : LinkEnd}, Lane P prof kL kP ws (pre ++ ws) j w r m →
      r.halves.reads <+: (pre ++ ws).map (fun p => .ok p.received) ∧
      w.halves.wrote <+: ws.map (fun p => (p, .done (.ok ()))) ∧
      r.halves.reads.length ≤ pre.length + w.halves.wrote.length + w.halves.wr.toList.length := by
    rintro kL kP pre ws j m w r ⟨_, rest, done, got, left, ⟨-, -, -, hW⟩, h1, h2, h3, h4, h5, -, -, -, -⟩
    refine ⟨?_, ?_, ?_⟩
    · rw [h4, h3, List.map_append]; exact List.prefix_append _ _
    · rw [h1, h2, List.map_append, List.map_append, List.append_assoc]; exact List.prefix_append _ _
    · rw [h4, h1, List.length_map, List.length_map]
      refine Nat.le_of_not_lt fun hc => ?_
      have hs := h5.size hP
      have e2 : (w.halves.wr.map (·.1)).toList.length = w.halves.wr.toList.length := by cases w.halves.wr <;> rfl
      have e1 : wireSize left < wireSize w.todo ∨ w.todo = [] := by
        have hl : left = (pre ++ ws).drop got.length := by rw [h3, List.drop_left]
        have e3 : pre ++ ws = (pre ++ done ++ (w.halves.wr.map (·.1)).toList) ++ w.todo := by rw [h2]; simp
        rw [e3, List.drop_append, List.drop_eq_nil_of_le (by simp only [List.length_append, e2]; omega), List.nil_append] at hl
        cases ht : w.todo with
        | nil => exact .inr rfl
        | cons p todo =>
          left
          rw [ht] at hl
          obtain ⟨x, hx⟩ : ∃ x, got.length - (pre ++ done ++ (w.halves.wr.map (·.1)).toList).length = x + 1 :=
            ⟨got.length - (pre ++ done ++ (w.halves.wr.map (·.1)).toList).length - 1, by
              simp only [List.length_append, e2]; omega⟩
          rw [hx, List.drop_succ_cons] at hl
          have := wireSize_drop_le todo x
          rw [hl]
          simp only [wireSize, List.map_cons, List.sum_cons] at this ⊢
          omega
      rcases e1 with e1 | e1
      · have : wireSize w.todo ≤ rest.length := by
          revert hW
          split
          · rintro rfl; rw [payloadStream_length hP]; exact Nat.le_refl _
          · rintro ⟨-, -, -, rfl⟩
            rw [payloadStream_length hP]
            simp only [wireSize, List.map_cons, List.sum_cons]; omega
          · rintro rfl; rw [List.length_append, payloadStream_length hP]; omega
          · rintro rfl; rw [payloadStream_length hP]; exact Nat.le_refl _
          · rintro ⟨-, rfl⟩; rw [payloadStream_length hP]; exact Nat.le_refl _
        simp only [List.length_append] at hs
        omega
      · have := congrArg List.length h3
        rw [h2, e1] at this
        simp only [List.length_append, e2, List.length_nil] at this
        omega
  obtain ⟨a1, a2, a3⟩ := key hA
  obtain ⟨b1, b2, b3⟩ := key hB
  exact ⟨a1, b1, a2, b2, hi.capA, hi.capB, hi.net, a3, b3⟩

/-- What `read` returns for a payload has its type and its contents. -/
theorem C71_received {p : Payload} (h : p.Readable) : p.received.packetType = p.packetType ∧ p.received.contents = p.contents := by
  obtain ⟨t, c, h1, h2, -⟩ := h
  simp only [Payload.received, h1, h2, Option.getD_some]
  cases t <;> exact ⟨rfl, rfl⟩

/-- **C71_finite.**  However the threads run, they make no more than this many steps that do something. -/
theorem C71_finite (hP : Lawful P) {S : LinkSetup} {fA fB : Flow} {s : Link} (h : s.Begins S P fA fB) {ls : List LinkLabel}
    (hb : s.Busy S P prof ls) : ls.length ≤ fA.steps + fB.steps := by
  obtain ⟨n, -, -, h1⟩ := (h.inv (prof := prof) hP).run hP ls
  have := h1 hb
  omega

/-! ## Getting stuck -/

/-- Whatever has happened, the threads can go on until none of them can do anything. -/
theorem Link.Inv.ends (hP : Lawful P) {S : LinkSetup} {fA fB : Flow} (n : Nat) {s : Link} (h : s.Inv S P prof fA fB n) :
    ∃ ls, (s.run S P prof ls).Stuck S P prof := by
  induction n using Nat.strongRecOn generalizing s with
  | _ n ih =>
    by_cases hs : s.Stuck S P prof
    · exact ⟨[], hs⟩
    · obtain ⟨l, hl⟩ := Classical.not_forall.1 hs
      rcases h.step hP l with h1 | ⟨-, n', h2, h3⟩
      · exact absurd h1 hl
      · obtain ⟨ls, h4⟩ := ih n' h2 h3
        exact ⟨l :: ls, h4⟩

/-- A thread that can do nothing can do nothing with any number of bytes. -/
theorem Link.Inv.step_any (hP : Lawful P) {S : LinkSetup} {fA fB : Flow} {n : Nat} {s : Link} (h : s.Inv S P prof fA fB n)
    {l l' : LinkLabel} (h1 : l'.ofA = l.ofA) (h2 : l'.call = l.call) (h3 : s.step S P prof l = s) : s.step S P prof l' = s := by
  obtain ⟨n₁, n₂, hA, hB, rfl⟩ := h.lanes
  have hnet : s.a.halves.run.net = s.b.halves.run.net.swap := by rw [h.net]; rfl
  unfold Link.step at h3 ⊢
  rw [h1, h2]
  cases hl : l.ofA with
  | true =>
    simp only [hl, if_true] at h3 ⊢
    have := Bip324.step_any hP h.net hA hB (congrArg Link.a h3) l'.k
    rw [this, LinkEnd.sees, ← h.net]
  | false =>
    simp only [hl, Bool.false_eq_true, if_false] at h3 ⊢
    have := Bip324.step_any hP hnet hB hA (congrArg Link.b h3) l'.k
    rw [this, LinkEnd.sees, ← hnet]

/-- **C71_fair.**  On every schedule without end on which every thread of both parties runs again and again, a point is
reached at which nothing more can be done. -/
theorem C71_fair (hP : Lawful P) {S : LinkSetup} {fA fB : Flow} {s : Link} (h : s.Begins S P fA fB) (ls : Nat → LinkLabel)
    (hfair : ∀ n ofA call, ∃ m, n ≤ m ∧ (ls m).ofA = ofA ∧ (ls m).call = call) :
    ∃ n, (s.run S P prof ((List.range n).map ls)).Stuck S P prof := by
  have hstep : ∀ n, s.run S P prof ((List.range (n + 1)).map ls) = (s.run S P prof ((List.range n).map ls)).step S P prof (ls n) := by
    intro n
    simp [Link.run, List.range_succ]
  have hinv : ∀ n, ∃ m, (s.run S P prof ((List.range n).map ls)).Inv S P prof fA fB m := fun n => by
    obtain ⟨m, -, hm, -⟩ := (h.inv (prof := prof) hP).run hP ((List.range n).map ls)
    exact ⟨m, hm⟩
  -- from some point on nothing changes
  have key : ∀ b n, (s.run S P prof ((List.range n).map ls)).Inv S P prof fA fB b →
      ∃ n', n ≤ n' ∧ ∀ m, n' ≤ m → s.run S P prof ((List.range m).map ls) = s.run S P prof ((List.range n').map ls) := by
    intro b
    induction b using Nat.strongRecOn with
    | _ b ih =>
      intro n hb
      by_cases hc : ∀ m, n ≤ m → s.run S P prof ((List.range m).map ls) = s.run S P prof ((List.range n).map ls)
      · exact ⟨n, Nat.le_refl _, hc⟩
      · -- the first change
        have : ∀ d, s.run S P prof ((List.range (n + d)).map ls) = s.run S P prof ((List.range n).map ls) ∨
            ∃ m b', n ≤ m ∧ b' < b ∧ (s.run S P prof ((List.range m).map ls)).Inv S P prof fA fB b' := by
          intro d
          induction d with
          | zero => exact .inl rfl
          | succ d ihd =>
            rcases ihd with hd | hd
            · have hb' := hb
              rw [← hd] at hb'
              rcases hb'.step hP (ls (n + d)) with h1 | ⟨-, b', h2, h3⟩
              · left
                rw [← Nat.add_assoc, hstep, h1, hd]
              · exact .inr ⟨n + d + 1, b', by omega, h2, by rw [hstep]; exact h3⟩
            · exact .inr hd
        obtain ⟨m, hm⟩ := Classical.not_forall.1 hc
        obtain ⟨hm1, hm2⟩ := Classical.not_imp.1 hm
        rcases this (m - n) with h1 | ⟨m', b', h1, h2, h3⟩
        · rw [show n + (m - n) = m by omega] at h1
          exact absurd h1 hm2
        · obtain ⟨n', h4, h5⟩ := ih b' h2 m' h3
          exact ⟨n', by omega, h5⟩
  obtain ⟨b, hb⟩ := hinv 0
  obtain ⟨N, -, hN⟩ := key b 0 hb
  refine ⟨N, fun l => ?_⟩
  obtain ⟨b', hb'⟩ := hinv N
  obtain ⟨m, h1, h2, h3⟩ := hfair N l.ofA l.call
  have h4 := hN (m + 1) (by omega)
  rw [hstep, hN m h1] at h4
  exact hb'.step_any hP h2.symm h3.symm h4

/-- What both parties are like when neither can do anything. -/
theorem Link.Inv.stuck (hP : Lawful P) {S : LinkSetup} {fA fB : Flow} {n : Nat} {s : Link} (h : s.Inv S P prof fA fB n)
    (hs : s.Stuck S P prof) :
    (∀ c, s.a.step S.orderA S.capA 0 P prof c = s.a) ∧ (∀ c, s.b.step S.orderB S.capB 0 P prof c = s.b) := by
  refine ⟨fun c => ?_, fun c => ?_⟩
  · exact congrArg Link.a (hs ⟨true, c, 0⟩)
  · exact congrArg Link.b (hs ⟨false, c, 0⟩)

/-- All is done, in terms of the two ends. -/
def Link.AllDone (s : Link) : Prop :=
  (s.a.halves.wr = none ∧ s.a.todo = [] ∧ s.a.halves.half.pc = .idle ∧ s.a.left = 0) ∧
  (s.b.halves.wr = none ∧ s.b.todo = [] ∧ s.b.halves.half.pc = .idle ∧ s.b.left = 0)

theorem Link.Inv.delivered (hP : Lawful P) {S : LinkSetup} {fA fB : Flow} {n : Nat} {s : Link} (h : s.Inv S P prof fA fB n)
    (hd : s.AllDone) : fA.Delivered s.a s.b ∧ fB.Delivered s.b s.a := by
  obtain ⟨⟨a1, a2, a3, a4⟩, b1, b2, b3, b4⟩ := hd
  obtain ⟨n₁, n₂, hA, hB, -⟩ := h.lanes
  obtain ⟨i1, i2, i3⟩ := hA.finished hP a1 a2 b3 b4
  obtain ⟨j1, j2, j3⟩ := hB.finished hP b1 b2 a3 a4
  exact ⟨⟨a1, b3, a2, b4, i1, i2, i3⟩, ⟨b1, a3, b2, a4, j1, j2, j3⟩⟩

/-- A party that can do nothing has ended, or is in a write with a full channel, or in a read with nothing to read. -/
theorem Follows.blocked {o : Order} {w r : Nat} {e : LinkEnd} {cap : Nat} (h : Follows o w r e)
    (hw : e.halves.wrote.length + (if e.halves.wr.isSome then 1 else 0) + e.todo.length = w)
    (hr : e.halves.reads.length + (if e.halves.half.pc = .idle then 0 else 1) + e.left = r) {Q : Prop}
    (hb : ((e.halves.wr = none ∧ (e.todo = [] ∨ e.may o .write = false)) ∨
      (cap ≤ e.halves.run.net.1.length ∧ ∃ p b bs, e.halves.wr = some (p, .sending (b :: bs)))) ∧
      ((e.halves.half.pc = .idle ∧ (e.left = 0 ∨ e.may o .read = false)) ∨
      (e.halves.half.pc ≠ .idle ∧ e.halves.half.held ++ e.halves.run.net.2 = [] ∧ Q))) :
    (e.halves.wr = none ∧ e.todo = [] ∧ e.halves.half.pc = .idle ∧ e.left = 0) ∨
    (cap ≤ e.halves.run.net.1.length ∧ ∃ p b bs, e.halves.wr = some (p, .sending (b :: bs))) ∨
    (e.halves.half.pc ≠ .idle ∧ e.halves.wr = none ∧ e.halves.half.held ++ e.halves.run.net.2 = [] ∧ Q) := by
  rcases h with rfl | ⟨calls, rfl, h1, h2, h3⟩
  · rcases split_blocked hb.1 hb.2 with ⟨i1 | i1, i2⟩
    · rcases i2 with i2 | i2
      · exact .inl ⟨i1.1, i1.2, i2.1, i2.2⟩
      · exact .inr (.inr ⟨i2.1, i1.1, i2.2.1, i2.2.2⟩)
    · exact .inr (.inl i1)
  · rcases h3.blocked (h1.trans hw.symm) (h2.trans hr.symm) hb.1 hb.2 with i | i | i
    · exact .inl i
    · exact .inr (.inl ⟨i.1, i.2.1⟩)
    · exact .inr (.inr ⟨i.1, i.2.1, i.2.2.1, i.2.2.2.1⟩)

/-- One party with two threads is enough. -/
theorem split_core (hP : Lawful P) {kL kP kL' kP' : Bytes} {pre ws pre' ws' : List Payload} {j j' n n' : Nat} {e f : LinkEnd}
    {o : Order} {cap cap' : Nat} (hc : 0 < cap) (hc' : 0 < cap') (hnet : f.halves.run.net = e.halves.run.net.swap)
    (hout : Lane P prof kL kP ws (pre ++ ws) j e f n) (hin : Lane P prof kL' kP' ws' (pre' ++ ws') j' f e n')
    (ho : Follows o ws.length (pre' ++ ws').length e) (he : ∀ c, e.step o cap 0 P prof c = e)
    (hf : ∀ c, f.step .split cap' 0 P prof c = f) :
    (e.halves.wr = none ∧ e.todo = [] ∧ e.halves.half.pc = .idle ∧ e.left = 0) ∧
    (f.halves.wr = none ∧ f.todo = [] ∧ f.halves.half.pc = .idle ∧ f.left = 0) := by
  have hnet' : e.halves.run.net = f.halves.run.net.swap := by rw [hnet]; rfl
  have be := ho.blocked hout.counts.1 hin.counts.2 (end_stuck hP hnet hout hin he)
  have hb := end_stuck hP hnet' hin hout hf
  obtain ⟨bw, br⟩ := split_blocked hb.1 hb.2
  rcases be with ⟨i1, i2, i3, i4⟩ | ⟨i1, p, b, bs, i2⟩ | ⟨i1, i2, i3, i4⟩
  · refine ⟨⟨i1, i2, i3, i4⟩, ?_⟩
    rcases bw with bw | ⟨-, p, b, bs, bw⟩
    · rcases br with br | ⟨br, -, bs⟩
      · exact ⟨bw.1, bw.2, br.1, br.2⟩
      · exact (hout.not_starved hP i1 i2 br bs).elim
    · exact (hin.not_sending hP bw i3 i4).elim
  · rcases br with br | ⟨-, br, -⟩
    · exact (hout.not_sending hP i2 br.1 br.2).elim
    · exact (not_full_empty hnet hc i1 br).elim
  · rcases bw with bw | ⟨bw, -⟩
    · exact (hin.not_starved hP bw.1 bw.2 i1 i4).elim
    · exact (not_full_empty hnet' hc' bw i3).elim

/-- **C71_split.**  If one of the parties reads and writes on two threads, the parties do not get stuck: when nothing more
can be done, everything has been delivered.  The program of the other party may make its calls in any order. -/
theorem C71_split (hP : Lawful P) {S : LinkSetup} {fA fB : Flow} {s : Link} (h : s.Begins S P fA fB) (hA : 0 < S.capA)
    (hB : 0 < S.capB) (hsplit : S.orderA = .split ∨ S.orderB = .split) {ls : List LinkLabel} {s' : Link}
    (hs : s.run S P prof ls = s') (hstuck : s'.Stuck S P prof) : fA.Delivered s'.a s'.b ∧ fB.Delivered s'.b s'.a := by
  subst hs
  obtain ⟨n, -, hi, -⟩ := (h.inv (prof := prof) hP).run hP ls
  obtain ⟨n₁, n₂, lA, lB, -⟩ := hi.lanes
  obtain ⟨ha, hb⟩ := hi.stuck hP hstuck
  refine hi.delivered hP ?_
  rcases hsplit with ho | ho
  · rw [ho] at ha
    obtain ⟨h1, h2⟩ := split_core hP hB hA (by rw [hi.net]; rfl) lB lA hi.orderB hb ha
    exact ⟨h2, h1⟩
  · rw [ho] at hb
    exact split_core hP hA hB hi.net lA lB hi.orderA ha hb

/-- A call that comes later: it is counted. -/
theorem count_lt_of_lt {calls : List IoCall} {i i' : Nat} {c : IoCall} (h : calls[i]? = some c) (hi : i < i') :
    (calls.take i).count c < (calls.take i').count c := by
  have h1 := count_take_succ (d := c) h
  rw [if_pos rfl] at h1
  have h2 : (calls.take (i + 1)).count c ≤ (calls.take i').count c :=
    (List.take_sublist_take_left (by omega)).count_le c
  omega

theorem count_dual (calls : List IoCall) (c : IoCall) : (calls.map IoCall.dual).count c = calls.count c.dual := by
  induction calls with
  | nil => rfl
  | cons d ds ih => rw [List.map_cons, List.count_cons, List.count_cons, ih]; cases c <;> cases d <;> rfl

theorem dual_dual (c : IoCall) : c.dual.dual = c := by cases c <;> rfl

/-- **C71_dual.**  Two programs on one thread each, of which one reads whenever the other writes, do not get stuck: a
request and its answer, in any number and any order, and with channels of a single byte. -/
theorem C71_dual (hP : Lawful P) {S : LinkSetup} {fA fB : Flow} {s : Link} (h : s.Begins S P fA fB) (hA : 0 < S.capA)
    (hB : 0 < S.capB) {calls : List IoCall} (hoA : S.orderA = .sequence calls) (hoB : S.orderB = .sequence (calls.map .dual))
    (hwA : fA.onTheWay = []) (hwB : fB.onTheWay = []) (hcw : calls.count .write = fA.todo.length)
    (hcr : calls.count .read = fB.todo.length) {ls : List LinkLabel} {s' : Link}
    (hs : s.run S P prof ls = s') (hstuck : s'.Stuck S P prof) : fA.Delivered s'.a s'.b ∧ fB.Delivered s'.b s'.a := by
  -- the programs are where they can be
  have hord : ∀ (ls : List LinkLabel) (s : Link), InOrder calls s.a → InOrder (calls.map .dual) s.b →
      InOrder calls (s.run S P prof ls).a ∧ InOrder (calls.map .dual) (s.run S P prof ls).b := by
    intro ls
    induction ls with
    | nil => exact fun s h1 h2 => ⟨h1, h2⟩
    | cons l ls ih =>
      intro s h1 h2
      refine ih (s.step S P prof l) ?_ ?_
      · unfold Link.step
        split
        · rw [hoA]; exact h1.step _ _ _
        · exact h1.sees _
      · unfold Link.step
        split
        · exact h2.sees _
        · rw [hoB]; exact h2.step _ _ _
  have h0 : ∀ (cs : List IoCall) (e : LinkEnd), e.halves.wr = none → e.halves.half.pc = .idle → e.halves.wrote = [] →
      e.halves.reads = [] → InOrder cs e := by
    intro cs e h1 h2 h3 h4
    exact ⟨fun h => (by rw [h1] at h; cases h), fun h => absurd h2 h, by simp [h3, h4], by simp [h3, h4]⟩
  obtain ⟨oA, oB⟩ := hord ls s (h0 _ _ h.ab.noWrite h.ba.noRead h.ab.wrote h.ba.reads)
    (h0 _ _ h.ba.noWrite h.ab.noRead h.ba.wrote h.ab.reads)
  obtain ⟨n, -, hi, -⟩ := (h.inv (prof := prof) hP).run hP ls
  rw [hs] at oA oB hi
  obtain ⟨n₁, n₂, lA, lB, -⟩ := hi.lanes
  obtain ⟨ha, hb⟩ := hi.stuck hP hstuck
  rw [hoA] at ha
  rw [hoB] at hb
  have allA : fA.all = fA.todo := by rw [Flow.all, hwA]; rfl
  have allB : fB.all = fB.todo := by rw [Flow.all, hwB]; rfl
  have hnet' : s'.a.halves.run.net = s'.b.halves.run.net.swap := by rw [hi.net]; rfl
  have sA := end_stuck hP hi.net lA lB ha
  have sB := end_stuck hP hnet' lB lA hb
  have bA := oA.blocked (hcw.trans lA.counts.1.symm) (hcr.trans (allB ▸ lB.counts.2.symm)) sA.1 sA.2
  have bB := oB.blocked (((count_dual calls .write).trans hcr).trans lB.counts.1.symm)
    (((count_dual calls .read).trans hcw).trans (allA ▸ lA.counts.2.symm)) sB.1 sB.2
  obtain ⟨-, -, cA1, cA2⟩ := oA
  obtain ⟨-, -, cB1, cB2⟩ := oB
  rw [← List.map_take, count_dual] at cB1 cB2
  simp only [IoCall.dual] at cB1 cB2
  refine hi.delivered hP ?_
  rcases bA with a | ⟨a1, ⟨p, b, bs, a2⟩, a3⟩ | ⟨a1, a2, a3, a4, a5⟩
  · refine ⟨a, ?_⟩
    rcases bB with b | ⟨-, ⟨p, b, bs, b2⟩, -⟩ | ⟨b1, -, -, b4, -⟩
    · exact b
    · exact (lB.not_sending hP b2 a.2.2.1 a.2.2.2).elim
    · exact (lA.not_starved hP a.1 a.2.1 b1 b4).elim
  · exfalso
    rcases bB with b' | ⟨-, ⟨p', b', bs', b2⟩, b3⟩ | ⟨-, -, b3, -⟩
    · exact lA.not_sending hP a2 b'.2.2.1 b'.2.2.2
    · have f1 := lA.sending hP a2
      have f2 := lB.sending hP b2
      rw [hwA, List.length_nil] at f1
      rw [hwB, List.length_nil] at f2
      rw [List.getElem?_map] at b3
      have b3' : calls[s'.b.halves.wrote.length + s'.b.halves.reads.length]? = some .read := by
        revert b3
        cases calls[s'.b.halves.wrote.length + s'.b.halves.reads.length]? with
        | none => simp
        | some c => cases c <;> simp [IoCall.dual]
      rcases Nat.lt_trichotomy (s'.a.halves.wrote.length + s'.a.halves.reads.length)
        (s'.b.halves.wrote.length + s'.b.halves.reads.length) with hlt | heq | hlt
      · have := count_lt_of_lt a3 hlt
        omega
      · rw [heq, b3'] at a3
        cases a3
      · have := count_lt_of_lt b3' hlt
        omega
    · exact not_full_empty hi.net hA a1 b3
  · exfalso
    rcases bB with b' | ⟨b1, -, -⟩ | ⟨b1, b2, -, b4, b5⟩
    · exact lB.not_starved hP b'.1 b'.2.1 a1 a4
    · exact not_full_empty hnet' hB b1 a3
    · have f1 := lB.starved hP b2 a4
      have f2 := lA.starved hP a2 b4
      rw [hwB, List.length_nil] at f1
      rw [hwA, List.length_nil] at f2
      rw [List.getElem?_map] at b5
      have b5' : calls[s'.b.halves.wrote.length + s'.b.halves.reads.length]? = some .write := by
        revert b5
        cases calls[s'.b.halves.wrote.length + s'.b.halves.reads.length]? with
        | none => simp
        | some c => cases c <;> simp [IoCall.dual]
      rcases Nat.lt_trichotomy (s'.a.halves.wrote.length + s'.a.halves.reads.length)
        (s'.b.halves.wrote.length + s'.b.halves.reads.length) with hlt | heq | hlt
      · have := count_lt_of_lt a5 hlt
        omega
      · rw [heq, b5'] at a5
        cases a5
      · have := count_lt_of_lt b5' hlt
        omega

/-! ## Both write first -/

theorem exchange_count_write (w r : Nat) : (List.replicate w IoCall.write ++ List.replicate r IoCall.read).count IoCall.write = w := by
  simp [List.count_append, List.count_replicate]

theorem exchange_count_read (w r : Nat) : (List.replicate w IoCall.write ++ List.replicate r IoCall.read).count IoCall.read = r := by
  simp [List.count_append, List.count_replicate]

/-- A program that reads has written everything. -/
theorem exchange_wrote {w r i : Nat} (h : (List.replicate w IoCall.write ++ List.replicate r IoCall.read)[i]? = some .read) :
    ((List.replicate w IoCall.write ++ List.replicate r IoCall.read).take i).count IoCall.write = w := by
  have hi : w ≤ i := by
    refine Nat.le_of_not_lt fun hc => ?_
    rw [List.getElem?_append_left (by simpa using hc), List.getElem?_replicate, if_pos hc] at h
    cases h
  rw [List.take_append, List.take_of_length_le (by simpa using hi), List.count_append]
  simp [List.count_replicate, List.take_replicate]

/-- The two orders are followed. -/
theorem Link.inOrder_run {S : LinkSetup} {cA cB : List IoCall} (hoA : S.orderA = .sequence cA) (hoB : S.orderB = .sequence cB)
    (ls : List LinkLabel) {s : Link} (h1 : InOrder cA s.a) (h2 : InOrder cB s.b) :
    InOrder cA (s.run S P prof ls).a ∧ InOrder cB (s.run S P prof ls).b := by
  induction ls generalizing s with
  | nil => exact ⟨h1, h2⟩
  | cons l ls ih =>
    refine ih (s := s.step S P prof l) ?_ ?_
    · unfold Link.step
      split
      · rw [hoA]; exact h1.step _ _ _
      · exact h1.sees _
    · unfold Link.step
      split
      · exact h2.sees _
      · rw [hoB]; exact h2.step _ _ _

theorem inOrder_fresh {cs : List IoCall} {e : LinkEnd} (h1 : e.halves.wr = none) (h2 : e.halves.half.pc = .idle)
    (h3 : e.halves.wrote = []) (h4 : e.halves.reads = []) : InOrder cs e :=
  ⟨fun h => (by rw [h1] at h; cases h), fun h => absurd h2 h, by simp [h3, h4], by simp [h3, h4]⟩

/-- If all that `e` writes fits into its channel, and both write first, neither gets stuck. -/
theorem exchange_core (hP : Lawful P) {kL kP kL' kP' : Bytes} {ws ws' : List Payload} {j j' n n' : Nat} {e f : LinkEnd}
    {cap cap' : Nat} (hc' : 0 < cap') (hnet : f.halves.run.net = e.halves.run.net.swap)
    (hout : Lane P prof kL kP ws ([] ++ ws) j e f n) (hin : Lane P prof kL' kP' ws' ([] ++ ws') j' f e n')
    (oe : InOrder (List.replicate ws.length .write ++ List.replicate ws'.length .read) e)
    (of : InOrder (List.replicate ws'.length .write ++ List.replicate ws.length .read) f)
    (he : ∀ c, e.step (.exchange ws.length ws'.length) cap 0 P prof c = e)
    (hf : ∀ c, f.step (.exchange ws'.length ws.length) cap' 0 P prof c = f) (hsize : wireSize ws ≤ cap) :
    (e.halves.wr = none ∧ e.todo = [] ∧ e.halves.half.pc = .idle ∧ e.left = 0) ∧
    (f.halves.wr = none ∧ f.todo = [] ∧ f.halves.half.pc = .idle ∧ f.left = 0) := by
  have hnet' : e.halves.run.net = f.halves.run.net.swap := by rw [hnet]; rfl
  have se := end_stuck hP hnet hout hin he
  have sf := end_stuck hP hnet' hin hout hf
  have be := oe.blocked ((exchange_count_write _ _).trans hout.counts.1.symm)
    ((exchange_count_read _ _).trans hin.counts.2.symm) se.1 se.2
  have bf := of.blocked ((exchange_count_write _ _).trans hin.counts.1.symm)
    ((exchange_count_read _ _).trans hout.counts.2.symm) sf.1 sf.2
  rcases be with e0 | ⟨e1, ⟨p, b, bs, e2⟩, -⟩ | ⟨e1, -, e3, e4, -⟩
  · refine ⟨e0, ?_⟩
    rcases bf with f0 | ⟨-, ⟨p, b, bs, f2⟩, -⟩ | ⟨f1, -, -, f4, -⟩
    · exact f0
    · exact (hin.not_sending hP f2 e0.2.2.1 e0.2.2.2).elim
    · exact (hout.not_starved hP e0.1 e0.2.1 f1 f4).elim
  · exfalso
    obtain ⟨m, rest, done, got, left, ⟨-, -, -, hW⟩, -, -, h3, -, h5, -⟩ := hout
    rw [e2] at hW
    simp only at hW
    subst hW
    have hs := h5.size hP
    have := congrArg wireSize h3
    rw [List.nil_append, wireSize_append] at this
    simp only [List.length_append, List.length_cons] at hs
    omega
  · exfalso
    rcases bf with f0 | ⟨f1, -, -⟩ | ⟨-, f2, -, -, f5⟩
    · exact hin.not_starved hP f0.1 f0.2.1 e1 e4
    · exact not_full_empty hnet' hc' f1 e3
    · have hw : f.halves.wrote.length = ws'.length := of.2.2.1.symm.trans (exchange_wrote f5)
      have hcnt := hin.counts.1
      rw [hw] at hcnt
      exact hin.not_starved hP f2 (List.length_eq_zero_iff.1 (by omega)) e1 e4

/-- **C71_exchange_fits.**  Both parties first write everything and then read everything.  If what one of them writes fits
into its channel, everything is delivered. -/
theorem C71_exchange_fits (hP : Lawful P) {S : LinkSetup} {fA fB : Flow} {s : Link} (h : s.Begins S P fA fB) (hA : 0 < S.capA)
    (hB : 0 < S.capB) (hoA : S.orderA = .exchange fA.todo.length fB.todo.length)
    (hoB : S.orderB = .exchange fB.todo.length fA.todo.length) (hwA : fA.onTheWay = []) (hwB : fB.onTheWay = [])
    (hfit : wireSize fA.todo ≤ S.capA ∨ wireSize fB.todo ≤ S.capB) {ls : List LinkLabel} {s' : Link}
    (hs : s.run S P prof ls = s') (hstuck : s'.Stuck S P prof) : fA.Delivered s'.a s'.b ∧ fB.Delivered s'.b s'.a := by
  obtain ⟨oA, oB⟩ := Link.inOrder_run (P := P) (prof := prof) (s := s) hoA hoB ls
    (inOrder_fresh h.ab.noWrite h.ba.noRead h.ab.wrote h.ba.reads) (inOrder_fresh h.ba.noWrite h.ab.noRead h.ba.wrote h.ab.reads)
  obtain ⟨n, -, hi, -⟩ := (h.inv (prof := prof) hP).run hP ls
  rw [hs] at oA oB hi
  obtain ⟨n₁, n₂, lA, lB, -⟩ := hi.lanes
  obtain ⟨ha, hb⟩ := hi.stuck hP hstuck
  rw [hoA] at ha
  rw [hoB] at hb
  refine hi.delivered hP ?_
  rw [Flow.all, hwA] at lA
  rw [Flow.all, hwB] at lB
  rcases hfit with hfit | hfit
  · exact exchange_core hP hB hi.net lA lB oA oB ha hb hfit
  · obtain ⟨h1, h2⟩ := exchange_core hP hA (by rw [hi.net]; rfl) lB lA oB oA hb ha hfit
    exact ⟨h2, h1⟩

/-- A party whose writes do not all fit does not come to its first read. -/
theorem exchange_no_read (hP : Lawful P) {kL kP kL' kP' : Bytes} {ws ws' : List Payload} {j j' n n' : Nat} {e f : LinkEnd}
    {cap k : Nat} (hout : Lane P prof kL kP ws ([] ++ ws) j e f n) (hin : Lane P prof kL' kP' ws' ([] ++ ws') j' f e n')
    (hnet : f.halves.run.net = e.halves.run.net.swap)
    (oe : InOrder (List.replicate ws.length .write ++ List.replicate ws'.length .read) e)
    (hidle : e.halves.half.pc = .idle) (hreads : f.halves.reads = []) (hf : f.halves.half.pc = .idle) (hheld : f.halves.half.held = [])
    (hcap : e.halves.run.net.1.length ≤ cap) (hsize : cap < wireSize ws) :
    e.step (.exchange ws.length ws'.length) cap k P prof .read = e := by
  rcases end_step (o := .exchange ws.length ws'.length) (cap := cap) (k := k) hP hnet hout hin .read with
    ⟨h, -, -⟩ | ⟨e', _, _, h1, h2, h3, h4, h5, h6, h7, h8, h9, h10, h11, h12⟩
  · exact h
  · exfalso
    have hm := h12 hidle
    simp only [LinkEnd.may, Order.exchange, Order.sequence, Bool.and_eq_true, Bool.not_eq_true', bne_eq_false_iff_eq,
      beq_iff_eq] at hm
    have hwr : e.halves.wr = none := by simpa using hm.1.1
    have hw : e.halves.wrote.length = ws.length := oe.2.2.1.symm.trans (exchange_wrote hm.2)
    have hc := hout.counts.1
    rw [hw] at hc
    have htodo : e.todo = [] := List.length_eq_zero_iff.1 (by omega)
    obtain ⟨m, rest, done, got, left, ⟨-, -, -, hW⟩, -, -, g3, g4, g5, -⟩ := hout
    rw [hwr, htodo] at hW
    simp only [payloadStream] at hW
    subst hW
    have hgot : got = [] := by
      rw [hreads] at g4
      exact List.map_eq_nil_iff.1 g4.symm
    subst hgot
    unfold ReaderAt at g5
    rw [hf] at g5
    obtain ⟨_, -, -, g6⟩ := g5
    have := congrArg List.length g6
    rw [payloadStream_length hP, hheld, List.nil_append, List.append_nil] at this
    rw [List.nil_append, List.nil_append] at g3
    rw [← g3] at this
    omega

/-- **C71_exchange_deadlock.**  Both parties first write everything and then read everything.  If what each of them writes
is more than its channel holds, then nothing is ever read, whatever the system does; and when nothing more can be done,
both are in a call of `write` that never returns, although no call has failed. -/
theorem C71_exchange_deadlock (hP : Lawful P) {S : LinkSetup} {fA fB : Flow} {s : Link} (h : s.Begins S P fA fB)
    (hoA : S.orderA = .exchange fA.todo.length fB.todo.length) (hoB : S.orderB = .exchange fB.todo.length fA.todo.length)
    (hwA : fA.onTheWay = []) (hwB : fB.onTheWay = []) (hbigA : S.capA < wireSize fA.todo) (hbigB : S.capB < wireSize fB.todo)
    {ls : List LinkLabel} {s' : Link} (hs : s.run S P prof ls = s') :
    s'.a.halves.reads = [] ∧ s'.b.halves.reads = [] ∧ s'.a.halves.half = s.a.halves.half ∧ s'.b.halves.half = s.b.halves.half ∧
    ¬ fA.Delivered s'.a s'.b ∧ ¬ fB.Delivered s'.b s'.a ∧
    (s'.Stuck S P prof → (∃ p b bs, s'.a.halves.wr = some (p, .sending (b :: bs)) ∧ s'.a.halves.run.net.1.length = S.capA) ∧
      ∃ p b bs, s'.b.halves.wr = some (p, .sending (b :: bs)) ∧ s'.b.halves.run.net.1.length = S.capB) := by
  subst hs
  have heldA : s.a.halves.half.held = [] := by
    have := h.ba.stream
    rw [hwB] at this
    exact (List.append_eq_nil_iff.1 this).1
  have heldB : s.b.halves.half.held = [] := by
    have := h.ab.stream
    rw [hwA] at this
    exact (List.append_eq_nil_iff.1 this).1
  -- nobody reads
  have key : ∀ (ls : List LinkLabel) (t : Link) (n : Nat), t.Inv S P prof fA fB n →
      InOrder (List.replicate fA.todo.length .write ++ List.replicate fB.todo.length .read) t.a →
      InOrder (List.replicate fB.todo.length .write ++ List.replicate fA.todo.length .read) t.b →
      t.a.halves.reads = [] → t.b.halves.reads = [] → t.a.halves.half = s.a.halves.half → t.b.halves.half = s.b.halves.half →
      (t.run S P prof ls).a.halves.reads = [] ∧ (t.run S P prof ls).b.halves.reads = [] ∧
      (t.run S P prof ls).a.halves.half = s.a.halves.half ∧ (t.run S P prof ls).b.halves.half = s.b.halves.half := by
    intro ls
    induction ls with
    | nil => exact fun t n _ _ _ h1 h2 h3 h4 => ⟨h1, h2, h3, h4⟩
    | cons l ls ih =>
      intro t n hi oA oB h1 h2 h3 h4
      rcases hi.step hP l with he | ⟨-, n', -, hi'⟩
      · show (Link.run S P prof (t.step S P prof l) ls).a.halves.reads = [] ∧ _
        have : t.run S P prof (l :: ls) = t.run S P prof ls := by
          show Link.run S P prof (t.step S P prof l) ls = _
          rw [he]
        rw [this, he]
        exact ih t n hi oA oB h1 h2 h3 h4
      · obtain ⟨n₁, n₂, lA, lB, -⟩ := hi.lanes
        rw [Flow.all, hwA] at lA
        rw [Flow.all, hwB] at lB
        have oo := Link.inOrder_run (P := P) (prof := prof) (s := t) hoA hoB [l] oA oB
        have frame : (t.step S P prof l).a.halves.reads = [] ∧ (t.step S P prof l).b.halves.reads = [] ∧
            (t.step S P prof l).a.halves.half = s.a.halves.half ∧ (t.step S P prof l).b.halves.half = s.b.halves.half := by
          unfold Link.step
          split
          · cases hc : l.call with
            | write =>
              obtain ⟨g1, g2, -⟩ := step_write_shape (P := P) (prof := prof) S.orderA S.capA l.k t.a
              exact ⟨g2.trans h1, h2, g1.trans h3, h4⟩
            | read =>
              have := exchange_no_read (k := l.k) hP lA lB hi.net oA (by rw [h3]; exact h.ba.noRead) h2 (by rw [h4]; exact h.ab.noRead)
                (by rw [h4]; exact heldB) hi.capA hbigA
              rw [hoA, this]
              exact ⟨h1, h2, h3, h4⟩
          · cases hc : l.call with
            | write =>
              obtain ⟨g1, g2, -⟩ := step_write_shape (P := P) (prof := prof) S.orderB S.capB l.k t.b
              exact ⟨h1, g2.trans h2, h3, g1.trans h4⟩
            | read =>
              have := exchange_no_read (k := l.k) hP lB lA (by rw [hi.net]; rfl) oB (by rw [h4]; exact h.ab.noRead) h1
                (by rw [h3]; exact h.ba.noRead) (by rw [h3]; exact heldA) hi.capB hbigB
              rw [hoB, this]
              exact ⟨h1, h2, h3, h4⟩
        exact ih _ n' hi' oo.1 oo.2 frame.1 frame.2.1 frame.2.2.1 frame.2.2.2
  have fa := inOrder_fresh (cs := List.replicate fA.todo.length .write ++ List.replicate fB.todo.length .read)
    h.ab.noWrite h.ba.noRead h.ab.wrote h.ba.reads
  have fb := inOrder_fresh (cs := List.replicate fB.todo.length .write ++ List.replicate fA.todo.length .read)
    h.ba.noWrite h.ab.noRead h.ba.wrote h.ab.reads
  obtain ⟨k1, k2, k3, k4⟩ := key ls s _ (h.inv hP) fa fb h.ba.reads h.ab.reads rfl rfl
  have neA : fA.todo ≠ [] := by rintro h0; rw [h0] at hbigA; exact absurd hbigA (by simp [wireSize])
  have neB : fB.todo ≠ [] := by rintro h0; rw [h0] at hbigB; exact absurd hbigB (by simp [wireSize])
  refine ⟨k1, k2, k3, k4, fun hd => ?_, fun hd => ?_, fun hstuck => ?_⟩
  · have := hd.reads
    rw [k2, Flow.all, hwA, List.nil_append] at this
    exact neA (List.map_eq_nil_iff.1 this.symm)
  · have := hd.reads
    rw [k1, Flow.all, hwB, List.nil_append] at this
    exact neB (List.map_eq_nil_iff.1 this.symm)
  · obtain ⟨n, -, hi, -⟩ := (h.inv (prof := prof) hP).run hP ls
    obtain ⟨oA, oB⟩ := Link.inOrder_run (P := P) (prof := prof) hoA hoB ls fa fb
    generalize hS : s.run S P prof ls = s' at *
    obtain ⟨n₁, n₂, lA, lB, -⟩ := hi.lanes
    obtain ⟨ha, hb⟩ := hi.stuck hP hstuck
    rw [hoA] at ha
    rw [hoB] at hb
    rw [Flow.all, hwA] at lA
    rw [Flow.all, hwB] at lB
    have idleA : s'.a.halves.half.pc = .idle := by rw [k3]; exact h.ba.noRead
    have idleB : s'.b.halves.half.pc = .idle := by rw [k4]; exact h.ab.noRead
    have sA := end_stuck hP hi.net lA lB ha
    have sB := end_stuck hP (by rw [hi.net]; rfl) lB lA hb
    have bA := oA.blocked ((exchange_count_write _ _).trans lA.counts.1.symm)
      ((exchange_count_read _ _).trans lB.counts.2.symm) sA.1 sA.2
    have bB := oB.blocked ((exchange_count_write _ _).trans lB.counts.1.symm)
      ((exchange_count_read _ _).trans lA.counts.2.symm) sB.1 sB.2
    constructor
    · rcases bA with ⟨-, -, -, a4⟩ | ⟨a1, ⟨p, b, bs, a2⟩, -⟩ | ⟨a1, -⟩
      · exfalso
        have := lB.counts.2
        rw [k1, idleA, a4, List.nil_append] at this
        exact neB (List.length_eq_zero_iff.1 (by simpa using this.symm))
      · exact ⟨p, b, bs, a2, Nat.le_antisymm hi.capA a1⟩
      · exact absurd idleA a1
    · rcases bB with ⟨-, -, -, b4⟩ | ⟨b1, ⟨p, b, bs, b2⟩, -⟩ | ⟨b1, -⟩
      · exfalso
        have := lA.counts.2
        rw [k2, idleB, b4, List.nil_append] at this
        exact neA (List.length_eq_zero_iff.1 (by simpa using this.symm))
      · exact ⟨p, b, bs, b2, Nat.le_antisymm hi.capB b1⟩
      · exact absurd idleB b1

/-- **C71_ends.**  Whatever has happened, the threads can run until nothing more can be done. -/
theorem C71_ends (hP : Lawful P) {S : LinkSetup} {fA fB : Flow} {s : Link} (h : s.Begins S P fA fB) (ls : List LinkLabel) :
    ∃ ls', (s.run S P prof (ls ++ ls')).Stuck S P prof := by
  obtain ⟨n, -, hi, -⟩ := (h.inv (prof := prof) hP).run hP ls
  obtain ⟨ls', h'⟩ := hi.ends hP
  refine ⟨ls', ?_⟩
  rw [Link.run, List.foldl_append]
  exact h'

/-- **C71_exchange.**  Both parties first write everything and then read everything: they can finish if and only if what one
of them writes fits into its channel. -/
theorem C71_exchange (hP : Lawful P) {S : LinkSetup} {fA fB : Flow} {s : Link} (h : s.Begins S P fA fB) (hA : 0 < S.capA)
    (hB : 0 < S.capB) (hoA : S.orderA = .exchange fA.todo.length fB.todo.length)
    (hoB : S.orderB = .exchange fB.todo.length fA.todo.length) (hwA : fA.onTheWay = []) (hwB : fB.onTheWay = []) :
    (∃ ls, fA.Delivered (s.run S P prof ls).a (s.run S P prof ls).b ∧ fB.Delivered (s.run S P prof ls).b (s.run S P prof ls).a) ↔
      wireSize fA.todo ≤ S.capA ∨ wireSize fB.todo ≤ S.capB := by
  constructor
  · rintro ⟨ls, hd, -⟩
    refine Classical.byContradiction fun hc => ?_
    have ⟨h1, h2⟩ := not_or.1 hc
    exact (C71_exchange_deadlock (prof := prof) hP h hoA hoB hwA hwB (by omega) (by omega) (ls := ls) rfl).2.2.2.2.1 hd
  · intro hfit
    obtain ⟨ls, hst⟩ := C71_ends (prof := prof) hP h []
    exact ⟨_, C71_exchange_fits hP h hA hB hoA hoB hwA hwB hfit rfl hst⟩

/-! ## From the beginning of the connection -/

/-- An end just after `Protocol::new` and `into_split`, with nothing on the way. -/
def LinkEnd.afterHandshake (i : InboundCipher) (o : OutboundCipher) (s : SyncSession) (todo : List Payload) (left : Nat) : LinkEnd :=
  ⟨⟨⟨i, (s.leftover, s.doneFirst), .idle⟩, o, none, ⟨([], []), [], []⟩, [], []⟩, todo, left⟩

/-- A session that has delivered everything holds nothing. -/
theorem held_of_streams {s : SyncSession} {tail : Source} {k : ErrorKind} (ht : tail = [.fail k])
    (h : SessStreams syncAbs s [] tail) : (if s.doneFirst then [] else s.leftover) = [] := by
  obtain ⟨c, -, h2, h3⟩ := h
  subst ht
  have h2 : SyncSession.abs s = c ++ [.fail k] := h2
  unfold SyncSession.abs at h2
  split at h2
  · rename_i hd
    rcases hd with hd | hd <;> simp [hd]
  · rename_i hd
    cases c with
    | nil =>
      rw [List.nil_append] at h2
      cases h2
    | cons e c =>
      rw [List.cons_append] at h2
      injection h2 with h4 h5
      subst h4
      exfalso
      simp only [Source.bytes, List.append_eq_nil_iff] at h3
      exact hd (.inr h3.1)

/-- **C71_connection.**  Two honest peers connect: in whatever pieces the bytes of the handshakes arrive, both handshakes
succeed, and what follows is as in the theorems above.  In particular, if one of the parties splits its session,
everything is delivered in both directions. -/
theorem C71_connection (hP : Lawful P) {magic rngI rngR : Bytes} {gI gR : Option Bytes} {dI dR : Option (List Bytes)}
    (H : HonestPair P prof magic rngI rngR gI gR dI dR) {toI toR : List Bytes} (hI : ∀ c ∈ toI, c ≠ []) (hR : ∀ c ∈ toR, c ≠ [])
    (hwI : toI.flatten = wireR P magic rngI rngR gR dR) (hwR : toR.flatten = wireI P magic rngI rngR gI dI)
    {psI psR : List Payload} (hpI : ∀ p ∈ psI, p.Readable) (hpR : ∀ p ∈ psR, p.Readable)
    (hnI : (dI.getD []).length + 1 + psI.length < 2 ^ 32) (hnR : (dR.getD []).length + 1 + psR.length < 2 ^ 32)
    {S : LinkSetup} (hoI : S.orderA.Fits psI.length psR.length) (hoR : S.orderB.Fits psR.length psI.length)
    (w : Sink) (hw : w.Reliable true) :
    ∃ iI oI sI iR oR sR, (handshake syncApi P prof magic .initiator rngI gI dI (pipe toI) w).2.2 = .ok (iI, oI, sI) ∧
      (handshake syncApi P prof magic .responder rngR gR dR (pipe toR) w).2.2 = .ok (iR, oR, sR) ∧
      ∃ fI fR, fI.all = psI ∧ fI.todo = psI ∧ fR.all = psR ∧ fR.todo = psR ∧
        (Link.mk (.afterHandshake iI oI sI psI psR.length) (.afterHandshake iR oR sR psR psI.length)).Begins S P fI fR ∧
        (0 < S.capA → 0 < S.capB → (S.orderA = .split ∨ S.orderB = .split) → ∀ ls s',
          (Link.mk (.afterHandshake iI oI sI psI psR.length) (.afterHandshake iR oR sR psR psI.length)).run S P prof ls = s' →
          s'.Stuck S P prof → fI.Delivered s'.a s'.b ∧ fR.Delivered s'.b s'.a) := by
  obtain ⟨iI, iR, oI, oR, hm1, hm2, fI, fR, ⟨kL, kP, atI⟩, kL', kP', atR⟩ := honest_pair hP H
  have runI : ∃ s, (handshake syncApi P prof magic .initiator rngI gI dI (pipe toI) w).2.2 = .ok (iI, oI, s) ∧
      SessStreams syncAbs s [] [.fail .wouldBlock] := by
    obtain ⟨a, f⟩ := handshake_flat (prof := prof) syncAbs hP (pipe_ends syncApi.retry)
      ⟨magic, .initiator, rngI, P.ellswift rngI⟩ gI dI (pipe toI) _ (pipe_streams hI) w
    obtain ⟨w', -, -, hf⟩ := (fI syncApi.retry w hw).1 []
    rw [List.append_nil, ← hwI] at hf
    unfold handshake
    rw [newWithRng_ok H.newI]
    simp only
    rw [hf] at f
    exact f
  have runR : ∃ s, (handshake syncApi P prof magic .responder rngR gR dR (pipe toR) w).2.2 = .ok (iR, oR, s) ∧
      SessStreams syncAbs s [] [.fail .wouldBlock] := by
    obtain ⟨a, f⟩ := handshake_flat (prof := prof) syncAbs hP (pipe_ends syncApi.retry)
      ⟨magic, .responder, rngR, P.ellswift rngR⟩ gR dR (pipe toR) _ (pipe_streams hR) w
    obtain ⟨w', -, -, hf⟩ := (fR syncApi.retry w hw).1 []
    rw [List.append_nil, ← hwR] at hf
    unfold handshake
    rw [newWithRng_ok H.newR]
    simp only
    rw [hf] at f
    exact f
  obtain ⟨sI, eI, tI⟩ := runI
  obtain ⟨sR, eR, tR⟩ := runR
  have hb : (Link.mk (.afterHandshake iI oI sI psI psR.length) (.afterHandshake iR oR sR psR psI.length)).Begins S P
      ⟨kL, kP, (dI.getD []).length + 1, [], psI⟩ ⟨kL', kP', (dR.getD []).length + 1, [], psR⟩ := by
    refine ⟨⟨atI, ⟨oI, atI, hm1⟩, ?_, Nat.zero_le _, rfl, rfl, rfl, rfl, rfl, rfl, hpI, hnI⟩,
      ⟨atR, ⟨oR, atR, hm2⟩, ?_, Nat.zero_le _, rfl, rfl, rfl, rfl, rfl, rfl, hpR, hnR⟩, rfl, hoI, hoR⟩
    · simp only [LinkEnd.afterHandshake, SyncHalf.held, List.append_nil]
      exact held_of_streams rfl tR
    · simp only [LinkEnd.afterHandshake, SyncHalf.held, List.append_nil]
      exact held_of_streams rfl tI
  exact ⟨iI, oI, sI, iR, oR, sR, eI, eR, _, _, rfl, rfl, rfl, rfl, hb, fun hA hB hs ls s' h1 h2 => C71_split hP hb hA hB hs h1 h2⟩

/-! ## Examples -/

namespace LinkExample

/-- An end before its first call. -/
def fresh (ownL ownP peerL peerP : Bytes) (net : Bytes × Bytes) (todo : List Payload) (left : Nat) : LinkEnd :=
  ⟨⟨⟨⟨FSStream.new peerL, FSAead.new peerP⟩, ([], true), .idle⟩, ⟨FSStream.new ownL, FSAead.new ownP⟩, none, ⟨net, [], []⟩, [], []⟩,
    todo, left⟩

def kL : Bytes := List.replicate 32 3
def kP : Bytes := List.replicate 32 5
def kL' : Bytes := List.replicate 32 7
def kP' : Bytes := List.replicate 32 9

/-- A sends three payloads, one of them a decoy; B sends two. -/
def fA : Flow := ⟨kL, kP, 0, [], [.genuine [1, 2, 3], .decoy [4], .genuine []]⟩
def fB : Flow := ⟨kL', kP', 0, [], [.genuine [9, 8], .genuine (List.replicate 30 6)]⟩

def start : Link := ⟨fresh kL kP kL' kP' ([], []) fA.todo 2, fresh kL' kP' kL kP ([], []) fB.todo 3⟩

/-- The hypotheses are met, for all orders that fit. -/
theorem begins (S : LinkSetup) (hA : S.orderA.Fits 3 2) (hB : S.orderB.Fits 2 3) : start.Begins S toy fA fB := by
  have h : ∀ (f : Flow) (w r : LinkEnd) (cap : Nat), f.number = 0 → f.onTheWay = [] →
      w.halves.out = ⟨FSStream.new f.kL, FSAead.new f.kP⟩ → r.halves.half.cipher = ⟨FSStream.new f.kL, FSAead.new f.kP⟩ →
      r.halves.half.sess = ([], true) → w.halves.run.net.1 = [] → w.halves.wr = none → r.halves.half.pc = .idle →
      w.halves.wrote = [] → r.halves.reads = [] → w.todo = f.todo → r.left = f.todo.length →
      (∀ p ∈ f.todo, p.Readable) → f.todo.length < 2 ^ 32 → f.Begins toy cap w r := by
    intro f w r cap h0 h1 h2 h3 h4 h5 h6 h7 h8 h9 h10 h11 h12 h13
    refine ⟨?_, ⟨⟨FSStream.new f.kL, FSAead.new f.kP⟩, ?_, ?_⟩, ?_, ?_, h6, h7, h8, h9, h10, ?_, ?_, ?_⟩
    · rw [h0, h1, h2]; exact ⟨FSStream.at_new _, FSAead.at_new _⟩
    · rw [h0]; exact ⟨FSStream.at_new _, FSAead.at_new _⟩
    · rw [h3]; exact ⟨rfl, rfl⟩
    · rw [h5, h1, SyncHalf.held, h4]; rfl
    · rw [h5]; exact Nat.zero_le _
    · rw [h11, Flow.all, h1]; rfl
    · rw [Flow.all, h1]; exact h12
    · rw [Flow.all, h1, h0, List.nil_append, Nat.zero_add]; exact h13
  refine ⟨h fA _ _ _ rfl rfl rfl rfl rfl rfl rfl rfl rfl rfl rfl rfl ?_ (by decide),
    h fB _ _ _ rfl rfl rfl rfl rfl rfl rfl rfl rfl rfl rfl rfl ?_ (by decide), rfl, hA, hB⟩
  · intro p hp
    simp only [fA, List.mem_cons, List.not_mem_nil, or_false] at hp
    rcases hp with rfl | rfl | rfl
    · exact ⟨.genuine, [1, 2, 3], rfl, rfl, by decide⟩
    · exact ⟨.decoy, [4], rfl, rfl, by decide⟩
    · exact ⟨.genuine, [], rfl, rfl, by decide⟩
  · intro p hp
    simp only [fB, List.mem_cons, List.not_mem_nil, or_false] at hp
    rcases hp with rfl | rfl
    · exact ⟨.genuine, [9, 8], rfl, rfl, by decide⟩
    · exact ⟨.genuine, List.replicate 30 6, rfl, rfl, by decide⟩

/-- Every thread in turn. -/
def rounds (n : Nat) : List LinkLabel :=
  (List.replicate n [⟨true, .write, 6⟩, ⟨false, .read, 4⟩, ⟨false, .write, 2⟩, ⟨true, .read, 9⟩]).flatten

/-- Two threads against one that writes first, over channels of 5 bytes and of 1 byte. -/
def setup1 : LinkSetup := ⟨.split, .exchange 2 3, 5, 1⟩

example : start.Begins setup1 toy fA fB :=
  begins setup1 (.inl rfl) (.inr ⟨List.replicate 2 .write ++ List.replicate 3 .read, rfl, by decide, by decide⟩)

/-- Everything arrives. -/
example : (start.run setup1 toy .release (rounds 170)).b.halves.reads = fA.all.map (fun p => .ok p.received) ∧
    (start.run setup1 toy .release (rounds 170)).a.halves.reads = fB.all.map (fun p => .ok p.received) := by decide +kernel

/-- `Begins` with packets on the way, one of them partly in the reader's buffer. -/
example : (⟨kL, kP, 0, [.genuine [1]], [.genuine [2]]⟩ : Flow).Begins toy 20
    ⟨⟨⟨⟨FSStream.new kL', FSAead.new kP'⟩, ([], true), .idle⟩,
      (((⟨FSStream.new kL, FSAead.new kP⟩ : OutboundCipher).encryptToVec toy .release [1] .genuine none).1), none,
      ⟨((payloadStream toy kL kP 0 [.genuine [1]]).drop 4, []), [], []⟩, [], []⟩, [.genuine [2]], 0⟩
    ⟨⟨⟨⟨FSStream.new kL, FSAead.new kP⟩, ((payloadStream toy kL kP 0 [.genuine [1]]).take 4, false), .idle⟩,
      ⟨FSStream.new kL', FSAead.new kP'⟩, none, ⟨([], (payloadStream toy kL kP 0 [.genuine [1]]).drop 4), [], []⟩, [], []⟩, [], 2⟩ := by
  have h0 : OutboundCipher.At toy kL kP 0 ⟨FSStream.new kL, FSAead.new kP⟩ := ⟨FSStream.at_new _, FSAead.at_new _⟩
  obtain ⟨o', h1, h2⟩ := h0.encryptToVec (prof := .release) toy_lawful (by decide) [1] .genuine none
  refine ⟨?_, ⟨_, h0, rfl, rfl⟩, ?_, ?_, rfl, rfl, rfl, rfl, rfl, rfl, ?_, by decide⟩
  · simp only
    rw [h2]
    exact h1
  · exact List.take_append_drop _ _
  · decide +kernel
  · intro p hp
    simp only [Flow.all, List.cons_append, List.nil_append, List.mem_cons, List.not_mem_nil, or_false] at hp
    rcases hp with rfl | rfl
    · exact ⟨.genuine, [1], rfl, rfl, by decide⟩
    · exact ⟨.genuine, [2], rfl, rfl, by decide⟩

/-- A conversation: the hypotheses of `C71_dual`, over channels of one byte. -/
def talk : List IoCall := [.write, .read, .write, .write, .read]

def setup2 : LinkSetup := ⟨.sequence talk, .sequence (talk.map .dual), 1, 1⟩

example : start.Begins setup2 toy fA fB :=
  begins setup2 (.inr ⟨talk, rfl, by decide, by decide⟩) (.inr ⟨talk.map .dual, rfl, by decide, by decide⟩)

/-- Both write first: `fA` needs 64 bytes and `fB` 72. -/
def setup3 (capA capB : Nat) : LinkSetup := ⟨.exchange 3 2, .exchange 2 3, capA, capB⟩

example (capA capB : Nat) : start.Begins (setup3 capA capB) toy fA fB :=
  begins _ (.inr ⟨_, rfl, by decide, by decide⟩) (.inr ⟨_, rfl, by decide, by decide⟩)

example : wireSize fA.todo = 64 ∧ wireSize fB.todo = 72 := by decide +kernel

/-- With room for 64 bytes one way and one byte the other way, everything arrives. -/
example : (start.run (setup3 64 1) toy .release (rounds 240)).b.halves.reads = fA.all.map (fun p => .ok p.received) ∧
    (start.run (setup3 64 1) toy .release (rounds 240)).a.halves.reads = fB.all.map (fun p => .ok p.received) := by decide +kernel

/-- With 63 and 71 bytes, nothing does. -/
example : (start.run (setup3 63 71) toy .release (rounds 240)).b.halves.reads = [] ∧
    (start.run (setup3 63 71) toy .release (rounds 240)).a.halves.run.net.1.length = 63 ∧
    (start.run (setup3 63 71) toy .release (rounds 240)).b.halves.run.net.1.length = 71 := by decide +kernel

/-- The hypotheses of `C71_connection`: garbage, two decoys, and two payloads one way. -/
example : ∃ toI toR : List Bytes, (∀ c ∈ toI, c ≠ []) ∧ (∀ c ∈ toR, c ≠ []) ∧
    toI.flatten = wireR toy [1, 2, 3, 4] (leBytes 32 77) (leBytes 32 99) none none ∧
    toR.flatten = wireI toy [1, 2, 3, 4] (leBytes 32 77) (leBytes 32 99) (some [42, 42]) (some [[1, 2, 3], []]) ∧
    HonestPair toy .debug [1, 2, 3, 4] (leBytes 32 77) (leBytes 32 99) (some [42, 42]) none (some [[1, 2, 3], []]) none ∧
    (∀ p ∈ [Payload.genuine [1], Payload.decoy []], p.Readable) ∧ Order.split.Fits 2 0 ∧
    (Order.exchange 0 2).Fits 0 2 ∧ (⟨[], [], []⟩ : Sink).Reliable true :=
  ⟨bytewise _, bytewise _, bytewise_ne _, bytewise_ne _, bytewise_flatten _, bytewise_flatten _, sample_pair,
    by intro p hp; simp only [List.mem_cons, List.not_mem_nil, or_false] at hp; rcases hp with rfl | rfl <;>
       exact ⟨_, _, rfl, rfl, by decide⟩,
    .inl rfl, .inr ⟨_, rfl, by decide, by decide⟩, ⟨by simp, by simp⟩⟩

/-- A schedule as in `C71_fair`. -/
example : ∀ n ofA call, ∃ m, n ≤ m ∧
    (⟨m % 2 = 0, if m / 2 % 2 = 0 then .write else .read, m⟩ : LinkLabel).ofA = ofA ∧
    (⟨m % 2 = 0, if m / 2 % 2 = 0 then .write else .read, m⟩ : LinkLabel).call = call := by
  intro n ofA call
  cases ofA <;> cases call
  · exact ⟨4 * n + 1, by omega, by simp; omega, by simp; omega⟩
  · exact ⟨4 * n + 3, by omega, by simp; omega, by simp; omega⟩
  · exact ⟨4 * n, by omega, by simp; omega, by simp; omega⟩
  · exact ⟨4 * n + 2, by omega, by simp; omega, by simp; omega⟩

end LinkExample

end Bip324
