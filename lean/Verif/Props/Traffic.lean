import Verif.Lemmas.TrafficSound

/-!
# Properties of the traffic shaper: C36, C37, C38, C41, C42 (shaped protocol), C45

A schedule is any list of labels (`Model/TrafficIo.lean`, `Model/TrafficFutures.lean`); the theorems hold
for all of them, for every random number generator and every configuration.
-/

namespace Bip324

variable {P : Prims} {prof : Profile} {R : Rng}

/-! ## What the peer reads

The specification: there is a sequence `m` of packets, some of them marked as the application's.  The
marked ones are, in order, exactly the payloads the application wrote; the others are decoys of 1 to 1024
bytes. -/

/-- `m` is a shuffle of the application's payloads `own` with the shaper's decoys. -/
def Shaped (own : List Payload) (m : List (Bool × Payload)) : Prop :=
  ownOf m = own ∧ ∀ x ∈ m, x.1 = false → ∃ n, 1 ≤ n ∧ n ≤ 1024 ∧ x.2 = .decoy (zeros n)

/-- A synchronous peer reads exactly such a sequence, and then how the stream ended. -/
def PeerReads (P : Prims) (prof : Profile) (r : SyncReader) (own : List Payload) (k : ErrorKind) : Prop :=
  ∃ m r' outs, Shaped own m ∧ r.readMany P prof m.length = (r', outs) ∧
    outs.map seen = m.map (fun x => x.2.view) ∧ (∀ x ∈ outs, ∃ p, x = .ok p) ∧
    (r'.read P prof).2 = .err (.fromIo k)

/-- An asynchronous peer, however it polls and cancels its reads, reads a beginning of such a sequence,
and with enough polls all of it. -/
def AsyncPeerReads (P : Prims) (prof : Profile) (r : AsyncReader) (own : List Payload) : Prop :=
  ∃ m, Shaped own m ∧ ∀ es, ∃ r' outs, r.run P prof es = (r', outs) ∧
    (payloads outs).map Payload.view <+: m.map (fun x => x.2.view) ∧
    (∀ x ∈ outs, (∃ p, x = .ok p) ∨ ∃ k, x = .err (.fromIo k)) ∧
    (r.reader.size + m.length ≤ polls es →
      (payloads outs).map Payload.view = m.map (fun x => x.2.view))

theorem shaper_decoy_view {p : Payload} (h : ShaperDecoy p) :
    ∃ n, n ≤ 1024 ∧ p.view = some (.decoy, zeros n) := by
  obtain ⟨n, -, h, rfl⟩ := h
  exact ⟨n, h, rfl⟩

theorem mem_ownOf {m : List (Bool × Payload)} {x : Bool × Payload} (hx : x ∈ m) (ht : x.1 = true) :
    x.2 ∈ ownOf m := by
  induction m with
  | nil => cases hx
  | cons y m ih =>
    obtain ⟨b, q⟩ := y
    rcases List.mem_cons.1 hx with rfl | h
    · simp only at ht; subst ht; simp [ownOf]
    · cases b
      · exact ih h
      · exact List.mem_cons_of_mem _ (ih h)

theorem marked_sizes {m : List (Bool × Payload)} {own : List Payload} {B : Nat} (hB : 1024 ≤ B)
    (h1 : ownOf m = own) (h2 : ∀ x ∈ m, x.1 = false → ShaperDecoy x.2)
    (hsize : ∀ p ∈ own, ∀ c, p.contents = some c → c.length ≤ B) :
    ∀ p ∈ m.map (·.2), ∀ c, p.contents = some c → c.length ≤ B := by
  intro p hp c hc
  obtain ⟨x, hx, rfl⟩ := List.mem_map.1 hp
  cases hb : x.1 with
  | true => exact hsize _ (h1 ▸ mem_ownOf hx hb) c hc
  | false =>
    obtain ⟨n, -, hn, hd⟩ := h2 x hx hb
    rw [hd] at hc
    simp only [Payload.decoy, Payload.contents, Option.some.injEq] at hc
    subst hc
    simp only [zeros, List.length_replicate]
    omega

/-- Delivery of whole jobs to a synchronous peer. -/
theorem serial_peer_reads (hP : Lawful P) {f : Flavour} {tr : List (Job × Outcome ProtocolError Unit)}
    {ws0 ws1 : WriterState R} (h : Serial f P prof ws0 tr ws1) (hok : ∀ x ∈ tr, x.2 = .ok ())
    (hsize : ∀ p ∈ writtenBy tr, ∀ c, p.contents = some c → c.length ≤ 4000013)
    {sent : Bytes} (hsent : ws1.writer.writer.out = ws0.writer.writer.out ++ sent)
    {r : SyncReader} (hm : Matching ws0.writer.cipher r.cipher) {tail : Source} {k : ErrorKind}
    (hend : EndsWith true tail k) (hs : SyncStreams r.reader sent tail) :
    PeerReads P prof r (writtenBy tr) k := by
  obtain ⟨m, bytes, g1, g2, g3, g4⟩ := h.sent hok
  have : bytes = sent := by
    rw [g2] at hsent
    exact List.append_cancel_left hsent
  subst this
  obtain ⟨r', outs, e1, e2, e3, -, e5⟩ := sync_delivers hP hend g1
    (marked_sizes (by omega) g3 g4 hsize) hm (more := []) (by rw [List.append_nil]; exact hs)
  obtain ⟨s, e⟩ := sync_read_end (P := P) (prof := prof) hend e5
  rw [List.length_map] at e1
  rw [List.map_map] at e2
  exact ⟨m, r', outs, ⟨g3, g4⟩, e1, e2, e3, by rw [e]⟩

/-- Delivery of whole jobs to an asynchronous peer. -/
theorem serial_async_peer_reads (hP : Lawful P) {f : Flavour}
    {tr : List (Job × Outcome ProtocolError Unit)}
    {ws0 ws1 : WriterState R} (h : Serial f P prof ws0 tr ws1) (hok : ∀ x ∈ tr, x.2 = .ok ())
    (hsize : ∀ p ∈ writtenBy tr, ∀ c, p.contents = some c → c.length < 2 ^ 24)
    {sent : Bytes} (hsent : ws1.writer.writer.out = ws0.writer.writer.out ++ sent)
    {i : InboundCipher} {s : AsyncSession} (hm : Matching ws0.writer.cipher i)
    (hs : s.remaining = sent) :
    AsyncPeerReads P prof ⟨i, s, .initReadingLength⟩ (writtenBy tr) := by
  obtain ⟨m, bytes, g1, g2, g3, g4⟩ := h.sent hok
  have : bytes = sent := by
    rw [g2] at hsent
    exact List.append_cancel_left hsent
  subst this
  refine ⟨m, ⟨g3, g4⟩, fun es => ?_⟩
  obtain ⟨ms, h1, h2⟩ := sent_backlog g1 (fun p hp c hc => Nat.lt_of_le_of_lt
    (marked_sizes (B := 2 ^ 24 - 1) (by omega) g3 g4
      (fun p hp c hc => by have := hsize p hp c hc; omega) p hp c hc) (by omega))
  have hlen : ms.length = m.length := by simpa using (congrArg List.length h1).symm
  obtain ⟨r', outs, done, rest, e1, e2, e3, -, e5, e6⟩ := run_inv (prof := prof) hP es
    ⟨i, s, .initReadingLength⟩ ms ⟨rfl, by omega, _, hm, by simpa [hs] using h2⟩
  rw [List.map_map] at h1
  have h1 : m.map (fun x => x.2.view) = ms.map some := h1
  refine ⟨r', outs, e1, ?_, e5, fun hb => ?_⟩
  · rw [e3, h1, e2, List.map_append]
    exact List.prefix_append _ _
  · have : rest = [] := e6 (by simp only at hb ⊢; omega)
    rw [e3, h1, e2, this, List.append_nil]

/-- The bytes `sent`, put on the wire by a shaped writer whose cipher was `o`, are read by every peer, of
either API, as `own` with decoys in between. -/
def ReadAs (P : Prims) (prof : Profile) (o : OutboundCipher) (sent : Bytes) (own : List Payload) : Prop :=
  ((∀ p ∈ own, ∀ c, p.contents = some c → c.length ≤ 4000013) →
    ∀ (r : SyncReader) tail k, Matching o r.cipher → EndsWith true tail k →
      SyncStreams r.reader sent tail → PeerReads P prof r own k) ∧
  ((∀ p ∈ own, ∀ c, p.contents = some c → c.length < 2 ^ 24) →
    ∀ (i : InboundCipher) (s : AsyncSession), Matching o i → s.remaining = sent →
      AsyncPeerReads P prof ⟨i, s, .initReadingLength⟩ own)

theorem Serial.readable (hP : Lawful P) {f : Flavour} {tr : List (Job × Outcome ProtocolError Unit)}
    {ws0 ws1 : WriterState R} (h : Serial f P prof ws0 tr ws1) (hok : ∀ x ∈ tr, x.2 = .ok ()) :
    ∃ sent, ws1.writer.writer.out = ws0.writer.writer.out ++ sent ∧
      ReadAs P prof ws0.writer.cipher sent (writtenBy tr) := by
  obtain ⟨sent, hs⟩ := h.out
  exact ⟨sent, hs.symm,
    fun hz r tail k hm he hst => serial_peer_reads hP h hok hz hs.symm hm he hst,
    fun hz i s hm hst => serial_async_peer_reads hP h hok hz hs.symm hm hst⟩

theorem mem_writesOf {tr : List (Job × Outcome ProtocolError Unit)}
    {x : Payload × Outcome ProtocolError Unit} (h : x ∈ writesOf tr) : (.write x.1, x.2) ∈ tr := by
  induction tr with
  | nil => cases h
  | cons y tr ih =>
    obtain ⟨j, r⟩ := y
    cases j with
    | write p =>
      rcases List.mem_cons.1 h with rfl | h
      · simp
      · exact List.mem_cons_of_mem _ (ih h)
    | cover => exact List.mem_cons_of_mem _ (ih h)

/-! ## C36 -/

/-- C36, threads.  Take any schedule of the application, the decoy thread and the reader, over a
transport that takes everything.  At every moment when the lock is free and no thread has panicked (see
`C36_no_panic`), all writes that returned were successful, and the bytes sent so far are whole packets
which every peer reads as exactly the payloads of these writes, in order, each once, with decoys in
between. -/
theorem C36_threads (hP : Lawful P) {s0 : ShapedSys R} (h0 : s0.Fresh)
    (hw : s0.ws.writer.writer.Reliable true) (ls : List SysLabel)
    (hfree : (s0.run P prof ls).owner = none) (hnp : (s0.run P prof ls).poisoned = false) :
    (∀ x ∈ (s0.run P prof ls).returned, x.2 = .ok ()) ∧
    (s0.run P prof ls).called =
      (s0.run P prof ls).returned.map (·.1) ++ (s0.run P prof ls).app.inflight ∧
    ∃ sent, (s0.run P prof ls).ws.writer.writer.out = s0.ws.writer.writer.out ++ sent ∧
      ReadAs P prof s0.ws.writer.cipher sent ((s0.run P prof ls).returned.map (·.1)) := by
  have hI := (h0.inv (P := P) (prof := prof)).run ls
  generalize hs : s0.run P prof ls = s at hI hfree hnp ⊢
  obtain ⟨hc, hI⟩ := hI
  rcases hI with ⟨tr, qs, h⟩ | ⟨tr, p, pc, h, -⟩ | ⟨tr, pc, h, -⟩
  · obtain ⟨-, -, -, hser, hret, hpo, hq, -⟩ := h
    have hok : ∀ x ∈ tr, x.2 = .ok () := by
      intro x hx
      rcases hser.reliable hw x hx with h | h
      · exact h
      · have : s.poisoned = true := hpo.2 ⟨x, hx, h⟩
        rw [hnp] at this; cases this
    rw [hq hnp, List.map_nil, List.append_nil] at hret
    obtain ⟨sent, h1, h2⟩ := hser.readable hP hok
    refine ⟨?_, hc, sent, h1, by rw [hret]; exact h2⟩
    intro x hx
    rw [hret] at hx
    exact hok _ (mem_writesOf hx)
  · rw [hfree] at h; cases h
  · rw [hfree] at h; cases h

/-- C36, threads: at every other moment the owner of the lock only has to go on, and it becomes free; so
the bytes on the wire are at every moment a beginning of such a sequence of whole packets. -/
theorem C36_threads_anytime (hP : Lawful P) {s0 : ShapedSys R} (h0 : s0.Fresh)
    (hw : s0.ws.writer.writer.Reliable true) (ls : List SysLabel) :
    ∃ t m, (t = SysLabel.app ∨ t = .bg) ∧ ∀ s, s = s0.run P prof (ls ++ List.replicate m t) →
      s.owner = none ∧ s.called = (s0.run P prof ls).called ∧
      (s0.run P prof ls).ws.writer.writer.out <+: s.ws.writer.writer.out ∧
      (s.poisoned = false → ∃ sent, s.ws.writer.writer.out = s0.ws.writer.writer.out ++ sent ∧
        ReadAs P prof s0.ws.writer.cipher sent (s.returned.map (·.1))) := by
  obtain ⟨t, m, h1, h2, h3, h4⟩ := ((h0.inv (P := P) (prof := prof)).run ls).progress
  refine ⟨t, m, h2, ?_⟩
  rintro s rfl
  rw [← ShapedSys.run_append] at h1 h3 h4
  exact ⟨h1, h3, h4, fun hnp => (C36_threads hP h0 hw _ h1 hnp).2.2⟩

/-- C36, threads: nothing panics in the first `2^32 - 1` packets (a step sends at most one). -/
theorem C36_no_panic (hP : Lawful P) {s0 : ShapedSys R} (h0 : s0.Fresh) {kL kP : Bytes} {n : Nat}
    (hat : OutboundCipher.At P kL kP n s0.ws.writer.cipher) (ls : List SysLabel)
    (hn : n + ls.length < 2 ^ 32) (hl : CallsUsable ls) :
    (s0.run P prof ls).poisoned = false ∧ (s0.run P prof ls).bg ≠ .panicked ∧
      ∀ x ∈ (s0.run P prof ls).returned, x.2 ≠ .panic := by
  have := (h0.sound hat).run (prof := prof) hP ls hn hl
  exact ⟨this.poisoned, this.alive, this.returned⟩

/-- C36, task.  As `C36_threads`, whenever the task waits for something to do: what was sent is read by
every peer as the payloads of a beginning of the calls (those cancelled included), the others being
queued. -/
theorem C36_task (hP : Lawful P) {s0 : AsyncShapedSys R} (h0 : s0.Fresh)
    (hw : s0.ws.writer.writer.Reliable false) (ls : List AsyncLabel) {a b : Bool}
    (hwait : (s0.run P prof ls).task = .select a b) :
    ∃ written,
      (s0.run P prof ls).called = written ++ (s0.run P prof ls).queue.map (·.payload) ∧
      ((s0.run P prof ls).returned.map (·.1)).Sublist written ∧
      (∀ x ∈ (s0.run P prof ls).returned, x.2 = .ok ()) ∧
      ∃ sent, (s0.run P prof ls).ws.writer.writer.out = s0.ws.writer.writer.out ++ sent ∧
        ReadAs P prof s0.ws.writer.cipher sent written := by
  have hI := (h0.inv (P := P) (prof := prof)).run ls
  generalize hs : s0.run P prof ls = s at hI hwait ⊢
  obtain ⟨tr, hnp, hans, ⟨ret, gone, e1, e2, e3⟩, hI⟩ := hI
  rcases hI with ⟨off, rest, h1, h2, h3, h4⟩ | ⟨_, _, _, h1, -⟩ | ⟨_, _, h1, -⟩ | ⟨_, _, h1, -⟩
  · have hok : ∀ x ∈ tr, x.2 = .ok () := by
      intro x hx
      rcases h2.reliable hw x hx with h | h
      · exact h
      · exact absurd h (hnp x hx)
    have hg : gone = [] := by
      by_cases hg : gone = []
      · exact hg
      · have := e2 hg; rw [hwait] at this; cases this
    subst hg
    rw [List.map_nil, List.append_nil] at e1
    have hsub : ret.Sublist (writesOf tr) := by
      rcases e3 with ⟨-, e⟩ | ⟨p, c, -, -, -, e⟩
      · exact e
      · exact e.trans (List.take_sublist _ _)
    obtain ⟨sent, g1, g2⟩ := h2.readable hP hok
    refine ⟨writtenBy tr, ?_, ?_, ?_, sent, g1, g2⟩
    · rw [h3, h4]
      have : ∀ (n : Nat) (l : List Payload), (cmdsOf n l).map (·.payload) = l := by
        intro n l
        induction l generalizing n with
        | nil => rfl
        | cons p l ih =>
          show p :: (cmdsOf (n + 1) l).map (·.payload) = _
          rw [ih]
      rw [this]
    · rw [e1]; exact hsub.map _
    · intro x hx
      rw [e1] at hx
      exact hok _ (mem_writesOf (hsub.subset hx))
  · rw [hwait] at h1; cases h1
  · rw [hwait] at h1; cases h1
  · rw [hwait] at h1; cases h1

/-- C36, task: the job the task is at ends (whatever the transport does), so that the task waits again
or has panicked; until then the bytes on the wire are a beginning of what they are then. -/
theorem C36_task_anytime {s0 : AsyncShapedSys R} (h0 : s0.Fresh) (ls : List AsyncLabel) :
    ∃ m, ∀ s, s = s0.run P prof (ls ++ List.replicate m .task) →
      ((∃ a b, s.task = .select a b) ∨ s.task = .panicked) ∧ s.called = (s0.run P prof ls).called ∧
      (s0.run P prof ls).ws.writer.writer.out <+: s.ws.writer.writer.out := by
  have hI := (h0.inv (P := P) (prof := prof)).run ls
  generalize hs : s0.run P prof ls = s1 at hI ⊢
  have fin : ∀ C pc, (C = TaskPc.covering ∨ ∃ cmd, C = .writing cmd) → s1.task = C pc →
      ∃ m, ∀ s, s = s0.run P prof (ls ++ List.replicate m .task) →
        ((∃ a b, s.task = .select a b) ∨ s.task = .panicked) ∧ s.called = s1.called ∧
        s1.ws.writer.writer.out <+: s.ws.writer.writer.out := by
    intro C pc hC ht
    obtain ⟨n, hn⟩ := JobPc.ends (P := P) (prof := prof) .async s1.ws pc
    obtain ⟨m, -, hm⟩ := AsyncShapedSys.task_finishes n s1 C hC pc _ _ ht hn
    refine ⟨m + 1, ?_⟩
    rintro s rfl
    have hr : s0.run P prof (ls ++ List.replicate (m + 1) .task) =
        (s1.run P prof (List.replicate m .task)).taskStep P prof := by
      rw [AsyncShapedSys.run_append, hs, List.replicate_succ', AsyncShapedSys.run_append]; rfl
    rw [hr, hm]
    have hout := JobPc.finish_out (P := P) (prof := prof) .async s1.ws pc
    rcases hC with rfl | ⟨cmd, rfl⟩
    · simp only [AsyncShapedSys.taskStep]
      split
      · exact ⟨.inr rfl, rfl, hout⟩
      · exact ⟨.inl ⟨_, _, rfl⟩, rfl, hout⟩
    · simp only [AsyncShapedSys.taskStep]
      split
      · exact ⟨.inr rfl, rfl, hout⟩
      · exact ⟨.inl ⟨_, _, rfl⟩, rfl, hout⟩
  have now : ((∃ a b, s1.task = .select a b) ∨ s1.task = .panicked) →
      ∃ m, ∀ s, s = s0.run P prof (ls ++ List.replicate m .task) →
        ((∃ a b, s.task = .select a b) ∨ s.task = .panicked) ∧ s.called = s1.called ∧
        s1.ws.writer.writer.out <+: s.ws.writer.writer.out := by
    intro h
    refine ⟨0, ?_⟩
    rintro s rfl
    rw [List.replicate_zero, List.append_nil, hs]
    exact ⟨h, rfl, List.prefix_rfl⟩
  obtain ⟨tr, -, -, -, hI⟩ := hI
  rcases hI with ⟨off, rest, h1, -⟩ | ⟨cmd, pc, _, h1, -⟩ | ⟨pc, _, h1, -⟩ | ⟨_, _, h1, -⟩
  · exact now (.inl ⟨_, _, h1⟩)
  · exact fin _ pc (.inr ⟨cmd, rfl⟩) h1
  · exact fin _ pc (.inl rfl) h1
  · exact now (.inr h1)

/-- C36, task: it does not panic in the first `2^32 - 1` packets. -/
theorem C36_task_no_panic (hP : Lawful P) {s0 : AsyncShapedSys R} (h0 : s0.Fresh) {kL kP : Bytes}
    {n : Nat} (hat : OutboundCipher.At P kL kP n s0.ws.writer.cipher) (ls : List AsyncLabel)
    (hn : n + ls.length < 2 ^ 32) (hl : AsyncCallsUsable ls) :
    (s0.run P prof ls).task ≠ .panicked :=
  ((h0.sound hat).run (prof := prof) hP ls hn hl).alive

end Bip324
