import Verif.Model.BufExample
import Verif.Props.ReadCost

/-!
# How often the transport is read, in numbers: C82

The exact number of calls when all bytes have arrived, and the three scenarios of protocol/examples/bufreader.rs.
-/

namespace Bip324

variable {P : Prims} {prof : Profile} {σ : Type} {fuel : Nat}

/-! ## Arithmetic of the calls -/

theorem bufCost_le (cap : Nat) : ∀ (ns : List Nat) (b left : Nat), bufCost cap b left ns ≤ ns.length := by
  intro ns
  induction ns with
  | nil => intro b left; exact Nat.le_refl _
  | cons n ns ih =>
    intro b left
    unfold bufCost
    have h1 := ih (b - n) left
    have h2 := ih 0 (left - (n - b))
    have h3 := ih (min cap left - (n - b)) (left - cap)
    simp only [List.length_cons]
    split
    · omega
    · split <;> omega

/-- Without a buffer: a call for every request. -/
theorem bufCost_zero : ∀ (ns : List Nat) (left : Nat), (∀ n ∈ ns, 0 < n) → bufCost 0 0 left ns = ns.length := by
  intro ns
  induction ns with
  | nil => intro left _; rfl
  | cons n ns ih =>
    intro left h
    have h0 := h n (List.mem_cons_self ..)
    unfold bufCost
    rw [if_neg (by omega), if_pos (by omega), ih _ (fun m hm => h m (List.mem_cons_of_mem _ hm)), List.length_cons]
    omega

theorem ceil_step {cap m : Nat} (hc : 0 < cap) (hm : cap ≤ m) : (m + cap - 1) / cap = 1 + (m - cap + cap - 1) / cap := by
  have : m + cap - 1 = (m - cap + cap - 1) + cap := by omega
  rw [this, Nat.add_div_right _ hc]
  omega

theorem ceil_one {cap m : Nat} (h0 : 0 < m) (hm : m ≤ cap) : (m + cap - 1) / cap = 1 :=
  Nat.div_eq_of_lt_le (by omega) (by omega)

theorem ceil_zero {cap : Nat} (hc : 0 < cap) : (0 + cap - 1) / cap = 0 := Nat.div_eq_of_lt (by omega)

theorem ceil_mono {cap m n : Nat} (h : m ≤ n) : (m + cap - 1) / cap ≤ (n + cap - 1) / cap := Nat.div_le_div_right (by omega)

/-- Requests that fit in the buffer: as many calls as it takes to receive their bytes in full buffers. -/
theorem bufCost_exact {cap : Nat} (hc : 0 < cap) : ∀ (ns : List Nat) (b left : Nat), (∀ n ∈ ns, n ≤ cap) → ns.sum ≤ b + left →
    bufCost cap b left ns = (ns.sum - b + cap - 1) / cap := by
  intro ns
  induction ns with
  | nil =>
    intro b left _ _
    simp only [bufCost, List.sum_nil, Nat.zero_sub]
    rw [ceil_zero hc]
  | cons n ns ih =>
    intro b left h hs
    have hn := h n (List.mem_cons_self ..)
    have ht : ∀ m ∈ ns, m ≤ cap := fun m hm => h m (List.mem_cons_of_mem _ hm)
    simp only [List.sum_cons] at hs ⊢
    unfold bufCost
    by_cases h1 : n ≤ b
    · rw [if_pos h1, ih _ _ ht (by omega)]
      congr 3
      omega
    · rw [if_neg h1]
      have hlow : ∀ k : Nat, k = ns.sum - (cap - (n - b)) → 1 + (k + cap - 1) / cap = (n + ns.sum - b + cap - 1) / cap := by
        rintro k rfl
        by_cases h3 : cap ≤ n + ns.sum - b
        · rw [ceil_step hc h3, show n + ns.sum - b - cap = ns.sum - (cap - (n - b)) by omega]
        · rw [show ns.sum - (cap - (n - b)) = 0 by omega, ceil_zero hc, ceil_one (by omega) (by omega)]
      by_cases h2 : cap ≤ n - b
      · rw [if_pos h2, ih _ _ ht (by omega), ← hlow _ rfl]
        congr 4
        omega
      · rw [if_neg h2, ih _ _ ht (by omega)]
        by_cases h4 : cap ≤ left
        · rw [← hlow _ rfl, Nat.min_eq_left h4]
        · rw [Nat.min_eq_right (by omega), show ns.sum - (left - (n - b)) = 0 by omega, ceil_zero hc, ceil_one (by omega) (by omega)]

/-- Any requests: at most that many. -/
theorem bufCost_bound {cap : Nat} (hc : 0 < cap) : ∀ (ns : List Nat) (b left : Nat), ns.sum ≤ b + left →
    bufCost cap b left ns ≤ (ns.sum - b + cap - 1) / cap := by
  intro ns
  induction ns with
  | nil => intro b left _; exact Nat.zero_le _
  | cons n ns ih =>
    intro b left hs
    simp only [List.sum_cons] at hs ⊢
    unfold bufCost
    by_cases h1 : n ≤ b
    · rw [if_pos h1]
      refine Nat.le_trans (ih _ _ (by omega)) (ceil_mono (by omega))
    · rw [if_neg h1]
      have hlow : ∀ k : Nat, k ≤ ns.sum - (cap - (n - b)) → 1 + (k + cap - 1) / cap ≤ (n + ns.sum - b + cap - 1) / cap := by
        intro k hk
        by_cases h3 : cap ≤ n + ns.sum - b
        · rw [ceil_step hc h3]
          exact Nat.add_le_add_left (ceil_mono (by omega)) 1
        · rw [show k = 0 by omega, ceil_zero hc, ceil_one (by omega) (by omega)]
      by_cases h2 : cap ≤ n - b
      · rw [if_pos h2]
        exact Nat.le_trans (Nat.add_le_add_left (ih _ _ (by omega)) 1) (hlow _ (by omega))
      · rw [if_neg h2]
        exact Nat.le_trans (Nat.add_le_add_left (ih _ _ (by omega)) 1) (hlow _ (by omega))

theorem requests_pos {ps : List Payload} : ∀ n ∈ ps.flatMap Payload.requests, 0 < n := by
  intro n hn
  simp only [List.mem_flatMap, Payload.requests, List.mem_cons, List.not_mem_nil, or_false] at hn
  obtain ⟨p, -, rfl | rfl⟩ := hn <;> omega

theorem requests_length (ps : List Payload) : (ps.flatMap Payload.requests).length = 2 * ps.length := by
  induction ps with
  | nil => rfl
  | cons p ps ih => simp only [List.flatMap_cons, List.length_append, ih, Payload.requests, List.length_cons, List.length_nil]; omega

/-! ## The exact number of calls -/

theorem syncDrained_iff {s : Bytes × Bool} : SyncDrained s ↔ SyncN.leftover s = 0 := by
  unfold SyncDrained SyncN.leftover
  obtain ⟨l, b⟩ := s
  cases b <;> simp

/-- C82, without a `BufReader`, blocking API, when the bytes have arrived: exactly two calls for every payload. -/
theorem C82_exact_plain_sync (hP : Lawful P) {p p' : SyncN (Source × Sink)} {cs : List Call} {xs : List Answer}
    (hl : SyncN.leftover p.sess = 0) (ha : Arrived p.run.net.1) (he : p.calls fuel scriptConn.toConn P prof cs = some (p', xs))
    (hf : ∀ a ∈ xs, a.fine) : p'.run.answers.length = p.run.answers.length + 2 * (Answer.payloads xs).length := by
  obtain ⟨-, h⟩ := syncCalls_view hP plain_sync_view plain_write_view cs (syncDrained_iff.2 hl) ⟨ha, rfl⟩ he hf
  have h1 := congrArg Prod.fst h
  rw [view_cost] at h1
  simp only [List.length_nil, bufCost_zero _ _ requests_pos, requests_length] at h1
  exact h1.symm

/-- C82, without a `BufReader`, asynchronous API. -/
theorem C82_exact_plain_async (hP : Lawful P) {p p' : AsyncN (Source × Sink)} {cs : List Call} {xs : List Answer}
    (hl : AsyncN.leftover p.sess = 0) (hst : p.state = .initReadingLength) (ha : Arrived p.run.net.1)
    (he : p.calls fuel scriptConn P prof cs = some (p', xs)) (hf : ∀ a ∈ xs, a.fine) :
    p'.run.answers.length = p.run.answers.length + 2 * (Answer.payloads xs).length := by
  obtain ⟨-, h⟩ := asyncCalls_view hP scriptConn_keeps plain_poll_view plain_write_view cs hl hst ⟨ha, rfl⟩ he hf
  have h1 := congrArg Prod.fst h
  rw [view_cost] at h1
  simp only [List.length_nil, bufCost_zero _ _ requests_pos, requests_length] at h1
  exact h1.symm

/-- C82, through a `BufReader`, blocking API: exactly the calls of the specification. -/
theorem C82_exact_buffered_sync (hP : Lawful P) {cap : Nat} {p p' : SyncN (BufState (ConnRun (Source × Sink)))} {cs : List Call}
    {xs : List Answer} (hl : SyncN.leftover p.sess = 0) (ha : Arrived p.run.net.inner.net.1)
    (he : p.calls fuel (bufConn cap scriptConn.toConn.logged) P prof cs = some (p', xs)) (hf : ∀ a ∈ xs, a.fine) :
    p'.run.net.inner.answers.length = p.run.net.inner.answers.length +
      bufCost cap p.run.net.buf.length p.run.net.inner.net.1.bytes.length ((Answer.payloads xs).flatMap Payload.requests) := by
  obtain ⟨-, h⟩ := syncCalls_view hP (buf_sync_view cap) (buf_write_view cap) cs (syncDrained_iff.2 hl) ⟨ha, rfl⟩ he hf
  have h1 := congrArg Prod.fst h
  rw [view_cost] at h1
  exact h1.symm

/-- C82, through tokio's `BufReader`, asynchronous API. -/
theorem C82_exact_buffered_async (hP : Lawful P) {cap : Nat} {p p' : AsyncN (BufState (ConnRun (Source × Sink)))} {cs : List Call}
    {xs : List Answer} (hl : AsyncN.leftover p.sess = 0) (hst : p.state = .initReadingLength) (ha : Arrived p.run.net.inner.net.1)
    (he : p.calls fuel (bufPoll cap scriptConn.logged) P prof cs = some (p', xs)) (hf : ∀ a ∈ xs, a.fine) :
    p'.run.net.inner.answers.length = p.run.net.inner.answers.length +
      bufCost cap p.run.net.buf.length p.run.net.inner.net.1.bytes.length ((Answer.payloads xs).flatMap Payload.requests) := by
  obtain ⟨-, h⟩ := asyncCalls_view hP (bufPoll_keeps cap scriptConn_keeps.logged) (buf_poll_view cap) (buf_write_view cap) cs hl hst
    ⟨ha, rfl⟩ he hf
  have h1 := congrArg Prod.fst h
  rw [view_cost] at h1
  exact h1.symm

/-- C82: a `BufReader` never costs calls. -/
theorem C82_never_more (cap b left : Nat) (ps : List Payload) :
    bufCost cap b left (ps.flatMap Payload.requests) ≤ 2 * ps.length := by
  rw [← requests_length]
  exact bufCost_le ..

/-- C82: payloads that fit in the buffer cost one call for each full buffer. -/
theorem C82_full_buffers {cap b left : Nat} {ps : List Payload} (hp : ∀ p ∈ ps, (p.contents.getD []).length + 17 ≤ cap)
    (hc : 3 ≤ cap) (hs : (ps.map fun p => (p.contents.getD []).length + 20).sum ≤ b + left) :
    bufCost cap b left (ps.flatMap Payload.requests) =
      ((ps.map fun p => (p.contents.getD []).length + 20).sum - b + cap - 1) / cap := by
  have hsum : ∀ ps : List Payload, (ps.flatMap Payload.requests).sum = (ps.map fun p => (p.contents.getD []).length + 20).sum := by
    intro ps
    induction ps with
    | nil => rfl
    | cons p ps ih =>
      simp only [List.flatMap_cons, List.sum_append, ih, Payload.requests, List.map_cons, List.sum_cons, List.sum_nil]; omega
  rw [← hsum] at hs ⊢
  refine bufCost_exact (by omega) _ _ _ ?_ hs
  intro n hn
  simp only [List.mem_flatMap, Payload.requests, List.mem_cons, List.not_mem_nil, or_false] at hn
  obtain ⟨p, hm, rfl | rfl⟩ := hn
  · exact hc
  · exact hp p hm

/-! ## The clients of the example, on any transport -/

theorem awaitRead_calls {N : PollConn σ} : ∀ {polls : Nat} {p p1 p2 : AsyncN σ} {q : Payload} {cs : List Call} {xs : List Answer},
    AsyncN.awaitRead fuel N P prof polls p = some (p1, .ok q) → p1.calls fuel N P prof cs = some (p2, xs) →
    ∃ cs' xs', p.calls fuel N P prof cs' = some (p2, xs') ∧ Answer.payloads xs' = q :: Answer.payloads xs := by
  intro polls
  induction polls with
  | zero => intro p p1 p2 q cs xs h _; simp [AsyncN.awaitRead] at h
  | succ polls ih =>
    intro p p1 p2 q cs xs h hc
    unfold AsyncN.awaitRead at h
    cases hp : AsyncN.pollRead fuel N P prof p with
    | none => rw [hp] at h; simp at h
    | some z =>
    obtain ⟨p3, z⟩ := z
    rw [hp] at h
    cases z with
    | pending =>
      simp only at h
      obtain ⟨cs', xs', h1, h2⟩ := ih h hc
      refine ⟨.read :: cs', .pending :: xs', ?_, by rw [← h2]; rfl⟩
      simp only [AsyncN.calls, hp, h1, PollResult.answer]
    | ready x =>
      simp only [Option.some.injEq, Prod.mk.injEq] at h
      obtain ⟨rfl, rfl⟩ := h
      refine ⟨.read :: cs, .read (.ok q) :: xs, ?_, rfl⟩
      simp only [AsyncN.calls, hp, hc, PollResult.answer]

theorem readAll_calls {N : PollConn σ} : ∀ {n : Nat} {p p' : AsyncN σ} {qs : List Payload},
    readAll fuel N P prof n p = some (p', .ok qs) → qs.length = n ∧
      ∃ cs xs, p.calls fuel N P prof cs = some (p', xs) ∧ Answer.payloads xs = qs := by
  intro n
  induction n with
  | zero =>
    intro p p' qs h
    simp only [readAll, Option.some.injEq, Prod.mk.injEq, Outcome.ok.injEq] at h
    obtain ⟨rfl, rfl⟩ := h
    exact ⟨rfl, [], [], rfl, rfl⟩
  | succ n ih =>
    intro p p' qs h
    unfold readAll at h
    cases ha : AsyncN.awaitRead fuel N P prof fuel p with
    | none => rw [ha] at h; simp at h
    | some z =>
    obtain ⟨p1, z⟩ := z
    rw [ha] at h
    cases z with
    | err e => simp at h
    | panic => simp at h
    | ok q =>
    simp only at h
    cases hr : readAll fuel N P prof n p1 with
    | none => rw [hr] at h; simp at h
    | some z =>
    obtain ⟨p2, z⟩ := z
    rw [hr] at h
    cases z with
    | err e => simp at h
    | panic => simp at h
    | ok qs1 =>
    simp only [Option.some.injEq, Prod.mk.injEq, Outcome.ok.injEq] at h
    obtain ⟨rfl, rfl⟩ := h
    obtain ⟨h1, cs, xs, h2, h3⟩ := ih hr
    obtain ⟨cs', xs', h4, h5⟩ := awaitRead_calls ha h2
    exact ⟨by simp [h1], cs', xs', h4, by rw [h5, h3]⟩

/-- C82, the client without a `BufReader` (bufreader.rs:197-212) on any transport: it gets all messages, and made two calls
for each of them, except for at most 85. -/
theorem C82_client {N : PollConn σ} (hP : Lawful P) (hN : N.Keeps) {magic rng : Bytes} {s : Scenario} {r r' : ConnRun σ} {qs : List Payload}
    (h : clientRun fuel N P prof magic rng s r = some (r', .ok qs)) :
    qs.length = s.totalMessages ∧ 2 * s.totalMessages ≤ dataReads r'.answers + 85 := by
  unfold clientRun at h
  cases hnew : AsyncN.new fuel N P prof magic .initiator rng none none r with
  | none => rw [hnew] at h; simp at h
  | some z =>
  obtain ⟨r1, z⟩ := z
  rw [hnew] at h
  cases z with
  | err e => simp at h
  | panic => simp at h
  | ok p =>
  simp only at h
  cases hr : readAll fuel N P prof s.totalMessages p with
  | none => rw [hr] at h; simp at h
  | some z =>
  obtain ⟨p', z⟩ := z
  rw [hr] at h
  simp only [Option.some.injEq, Prod.mk.injEq] at h
  obtain ⟨rfl, rfl⟩ := h
  obtain ⟨h1, cs, xs, h2, h3⟩ := readAll_calls hr
  have := C82_whole_async hP hN hnew h2
  rw [h3, h1] at this
  exact ⟨h1, by omega⟩

/-- C82, the client with a `BufReader` (bufreader.rs:180-196), however the bytes arrive: one call for 8192 bytes, and one for
each piece in which they arrived. -/
theorem C82_buffered_client {magic rng : Bytes} {s : Scenario} {src : Source} {w : Sink} {qs : List Payload}
    {r' : ConnRun (BufState (ConnRun (Source × Sink)))}
    (h : bufferedClientRun fuel scriptConn P prof magic rng s (src, w) = some (r', .ok qs)) :
    qs.length = s.totalMessages ∧
    dataReads r'.net.inner.answers ≤ received r'.net.inner.answers / 8192 + dataReads src := by
  unfold bufferedClientRun clientRun at h
  cases hnew : AsyncN.new fuel (bufPoll DEFAULT_BUF_SIZE scriptConn.logged) P prof magic .initiator rng none none
      ⟨⟨⟨(src, w), [], []⟩, []⟩, [], []⟩ with
  | none => rw [hnew] at h; simp at h
  | some z =>
  obtain ⟨r1, z⟩ := z
  rw [hnew] at h
  cases z with
  | err e => simp at h
  | panic => simp at h
  | ok p =>
  simp only at h
  cases hr : readAll fuel (bufPoll DEFAULT_BUF_SIZE scriptConn.logged) P prof s.totalMessages p with
  | none => rw [hr] at h; simp at h
  | some z =>
  obtain ⟨p', z⟩ := z
  rw [hr] at h
  simp only [Option.some.injEq, Prod.mk.injEq] at h
  obtain ⟨rfl, rfl⟩ := h
  obtain ⟨h1, cs, xs, h2, h3⟩ := readAll_calls hr
  exact ⟨h1, (C82_buffered_async (by decide) hnew).2 p cs p' xs rfl h2⟩

/-! ## The clients of the example, when the bytes have arrived -/

/-- A reader that is never pending. -/
def NeverPending (N : PollConn σ) (V : ConnRun σ → View → Prop) : Prop :=
  ∀ r v n r', V r v → N.pollRun r n ≠ (r', .pending)

theorem plain_never : NeverPending scriptConn plainView := fun _ _ _ _ hv h => plain_pending hv.1 h

theorem buf_never (cap : Nat) : NeverPending (bufPoll cap scriptConn.logged) bufView := by
  rintro ⟨⟨i, buf⟩, ans, sent⟩ v n r' ⟨ha, rfl⟩ he
  simp only at ha
  simp only [PollConn.pollRun, bufPoll, bufPollRead, PollConn.logged] at he
  by_cases hb : buf = []
  · subst hb
    simp only [if_pos] at he
    by_cases hc : cap ≤ n
    · simp only [if_pos hc] at he
      cases hr : scriptConn.pollRun i n with
      | mk i' z =>
      cases z with
      | pending => exact plain_pending ha hr
      | ready y =>
      unfold PollConn.pollRun at hr
      rw [hr] at he
      simp only at he
      split at he <;> simp_all
    · simp only [if_neg hc] at he
      cases hr : scriptConn.pollRun i cap with
      | mk i' z =>
      cases z with
      | pending => exact plain_pending ha hr
      | ready y =>
      unfold PollConn.pollRun at hr
      rw [hr] at he
      cases y <;> simp at he
  · simp only [if_neg hb] at he
    simp at he

theorem pollFillN_never {N : PollConn σ} {cap : Nat} {V : ConnRun σ → View → Prop} (hV : ReadView N.pollAs cap V) (hN : NeverPending N V) :
    ∀ {fuel : Nat} {s s' : (Bytes × Nat) × ConnRun σ} {v : View} {buf buf' : Bytes} {n n' : Nat}, AsyncN.leftover s.1 = 0 → V s.2 v →
    pollFillN fuel N s buf n ≠ some (.pending s' buf' n') := by
  intro fuel
  induction fuel with
  | zero => intro s s' v buf buf' n n' _ _ h; simp [pollFillN] at h
  | succ fuel ih =>
    intro s s' v buf buf' n n' hs hv h
    unfold pollFillN at h
    by_cases h0 : n < buf.length
    · simp only [if_pos h0] at h
      have hsess : sessPollN N s (buf.length - n) = ((s.1, (N.pollRun s.2 (buf.length - n)).1), (N.pollRun s.2 (buf.length - n)).2) := by
        unfold sessPollN
        have : ¬ s.1.2 < s.1.1.length := by unfold AsyncN.leftover at hs; omega
        rw [if_neg this]
      rw [hsess] at h
      cases hp : N.pollRun s.2 (buf.length - n) with
      | mk r1 z =>
      rw [hp] at h
      rcases z with ((_ | ⟨b, bs⟩) | k) | _
      · simp at h
      · simp only at h
        have hpa : N.pollAs s.2 (buf.length - n) = some (r1, .ok (b :: bs)) := by
          unfold PollConn.pollAs; rw [hp]
        exact ih (s := (s.1, r1)) hs (hV _ _ _ _ _ (by omega) hv hpa).1 h
      · simp at h
      · exact hN _ _ _ _ hv hp
    · simp [if_neg h0] at h

theorem pollN_never {N : PollConn σ} (hK : N.Keeps) {cap : Nat} {V : ConnRun σ → View → Prop} (hV : ReadView N.pollAs cap V)
    (hN : NeverPending N V) {r r' : AsyncReaderN σ} {v : View} (hs : AsyncN.leftover r.reader.1 = 0)
    (hst : r.state = .initReadingLength) (hv : V r.reader.2 v) : AsyncReaderN.poll fuel N P prof r ≠ some (r', .pending) := by
  intro he
  unfold AsyncReaderN.poll at he
  rw [hst] at he
  simp only [DecryptState.initReadingLength] at he
  cases hf : pollFillN fuel N r.reader (zeros NUM_LENGTH_BYTES) 0 with
  | none => rw [hf] at he; simp at he
  | some y =>
  rw [hf] at he
  cases y with
  | pending s b n => exact pollFillN_never hV hN hs hv hf
  | err s b n k => simp at he
  | full s1 b1 n1 =>
  obtain ⟨h1, h2, lb, h3⟩ := pollFillN_exact hK [] hs (by omega) hf
  obtain ⟨v1, -⟩ := readExactN_view hV (by simp [zeros, NUM_LENGTH_BYTES]) hv h3
  simp only at he
  cases hd : r.cipher.decryptPacketLen P prof b1 with
  | mk c1 z =>
  rw [hd] at he
  cases z with
  | err e => simp at he
  | panic => simp at he
  | ok len =>
  simp only [AsyncReaderN.pollPayload] at he
  cases hf2 : pollFillN fuel N s1 (zeros len) 0 with
  | none => rw [hf2] at he; simp at he
  | some y =>
  rw [hf2] at he
  cases y with
  | pending s b n => exact pollFillN_never hV hN h1 v1 hf2
  | err s b n k => simp at he
  | full s2 b2 n2 =>
    simp only at he
    repeat' split at he
    all_goals simp at he

theorem readAll_view (hP : Lawful P) {N : PollConn σ} (hK : N.Keeps) {cap : Nat} {V : ConnRun σ → View → Prop}
    (hV : ReadView N.pollAs cap V) (hN : NeverPending N V) : ∀ {n : Nat} {p p' : AsyncN σ} {qs : List Payload} {v : View},
    AsyncN.leftover p.sess = 0 → p.state = .initReadingLength → V p.run v → readAll fuel N P prof n p = some (p', .ok qs) →
    V p'.run ((qs.flatMap Payload.requests).foldl (View.exact cap) v) := by
  intro n
  induction n with
  | zero =>
    intro p p' qs v _ _ hv h
    simp only [readAll, Option.some.injEq, Prod.mk.injEq, Outcome.ok.injEq] at h
    obtain ⟨rfl, rfl⟩ := h
    exact hv
  | succ n ih =>
    intro p p' qs v hl hst hv h
    unfold readAll at h
    cases ha : AsyncN.awaitRead fuel N P prof fuel p with
    | none => rw [ha] at h; simp at h
    | some z =>
    obtain ⟨p1, z⟩ := z
    rw [ha] at h
    cases z with
    | err e => simp at h
    | panic => simp at h
    | ok q =>
    simp only at h
    cases hr : readAll fuel N P prof n p1 with
    | none => rw [hr] at h; simp at h
    | some z =>
    obtain ⟨p2, z⟩ := z
    rw [hr] at h
    cases z with
    | err e => simp at h
    | panic => simp at h
    | ok qs1 =>
    simp only [Option.some.injEq, Prod.mk.injEq, Outcome.ok.injEq] at h
    obtain ⟨rfl, rfl⟩ := h
    cases fuel with
    | zero => simp [AsyncN.awaitRead] at ha
    | succ f =>
    unfold AsyncN.awaitRead AsyncN.pollRead at ha
    cases hq : AsyncReaderN.poll (f + 1) N P prof ⟨p.inbound, (p.sess, p.run), p.state⟩ with
    | none => rw [hq] at ha; simp at ha
    | some z =>
    obtain ⟨⟨c1, ⟨s1, r1⟩, st⟩, x⟩ := z
    rw [hq] at ha
    cases x with
    | pending => exact absurd hq (pollN_never hK hV hN hl hst hv)
    | ready x =>
    simp only [Option.some.injEq, Prod.mk.injEq] at ha
    obtain ⟨rfl, rfl⟩ := ha
    obtain ⟨h1, h2, r2, lb, pb, e1, e2⟩ := pollN_shape hP hK (r := ⟨p.inbound, (p.sess, p.run), p.state⟩) hl hst hq
    obtain ⟨v1, -⟩ := readExactN_view hV (by omega) hv e1
    obtain ⟨v2, -⟩ := readExactN_view hV (by omega) v1 e2
    have := ih (p := ⟨c1, s1, st, p.outbound, r1⟩) h1 h2 v2 hr
    exact this

/-- The payloads are those of the scenario, in their sizes. -/
def Scenario.Sizes (s : Scenario) (qs : List Payload) : Prop :=
  qs.map (fun q => (q.contents.getD []).length) = (List.replicate s.iterations s.messageSizes).flatten

/-- The bytes of the scenario on the wire: 20 more for every message. -/
def Scenario.wireBytes (s : Scenario) : Nat := s.totalBytes + 20 * s.totalMessages

theorem Scenario.Sizes.requests {s : Scenario} {qs : List Payload} (h : s.Sizes qs) :
    qs.flatMap Payload.requests = (List.replicate s.iterations (s.messageSizes.flatMap fun n => [3, n + 17])).flatten := by
  have h1 : ∀ qs : List Payload, qs.flatMap Payload.requests =
      (qs.map (fun q => (q.contents.getD []).length)).flatMap fun n => [3, n + 17] := by
    intro qs
    rw [List.flatMap_map]
    rfl
  have h2 : ∀ (k : Nat) (l : List Nat), (List.replicate k l).flatten.flatMap (fun n => [3, n + 17]) =
      (List.replicate k (l.flatMap fun n => [3, n + 17])).flatten := by
    intro k l
    induction k with
    | zero => rfl
    | succ k ih => simp only [List.replicate_succ, List.flatten_cons, List.flatMap_append, ih]
  rw [h1, h, h2]

theorem sum_replicate_flatten (k : Nat) (l : List Nat) : ((List.replicate k l).flatten).sum = k * l.sum := by
  induction k with
  | zero => simp
  | succ k ih => simp only [List.replicate_succ, List.flatten_cons, List.sum_append, ih, Nat.succ_mul]; omega

theorem mem_replicate_flatten {k : Nat} {l : List Nat} {n : Nat} (h : n ∈ (List.replicate k l).flatten) : n ∈ l := by
  simp only [List.mem_flatten, List.mem_replicate] at h
  obtain ⟨_, ⟨-, rfl⟩, h⟩ := h
  exact h

/-- C82: the client without a `BufReader` on bytes that have arrived: two calls for every message. -/
theorem C82_scenario_plain (hP : Lawful P) {s : Scenario} {p p' : AsyncN (Source × Sink)} {qs : List Payload}
    (hl : AsyncN.leftover p.sess = 0) (hst : p.state = .initReadingLength) (ha : Arrived p.run.net.1)
    (h : readAll fuel scriptConn P prof s.totalMessages p = some (p', .ok qs)) :
    p'.run.answers.length = p.run.answers.length + 2 * s.totalMessages := by
  obtain ⟨-, h1⟩ := readAll_view hP scriptConn_keeps plain_poll_view plain_never hl hst ⟨ha, rfl⟩ h
  have h1 := congrArg Prod.fst h1
  rw [view_cost] at h1
  simp only [List.length_nil, bufCost_zero _ _ requests_pos, requests_length, (readAll_calls h).1] at h1
  exact h1.symm

/-- C82: the client with a `BufReader` on bytes that have arrived: exactly the calls of the specification. -/
theorem C82_scenario_buffered (hP : Lawful P) {s : Scenario} {p p' : AsyncN (BufState (ConnRun (Source × Sink)))} {qs : List Payload}
    (hl : AsyncN.leftover p.sess = 0) (hst : p.state = .initReadingLength) (ha : Arrived p.run.net.inner.net.1)
    (h : readAll fuel (bufPoll DEFAULT_BUF_SIZE scriptConn.logged) P prof s.totalMessages p = some (p', .ok qs)) :
    p'.run.net.inner.answers.length = p.run.net.inner.answers.length +
      bufCost DEFAULT_BUF_SIZE p.run.net.buf.length p.run.net.inner.net.1.bytes.length (qs.flatMap Payload.requests) := by
  obtain ⟨-, h1⟩ := readAll_view hP (bufPoll_keeps _ scriptConn_keeps.logged) (buf_poll_view _) (buf_never _) hl hst ⟨ha, rfl⟩ h
  have h1 := congrArg Prod.fst h1
  rw [view_cost] at h1
  exact h1.symm

/-- C82: the scenario "bitcoin typical" (bufreader.rs:40-53): 200,000 calls without a `BufReader`, 1,458 with. -/
theorem C82_typical (hP : Lawful P) {p p' : AsyncN (BufState (ConnRun (Source × Sink)))} {qs : List Payload}
    (hl : AsyncN.leftover p.sess = 0) (hst : p.state = .initReadingLength) (ha : Arrived p.run.net.inner.net.1)
    (hb : p.run.net.buf = []) (hw : Scenario.bitcoinTypical.wireBytes ≤ p.run.net.inner.net.1.bytes.length)
    (h : readAll fuel (bufPoll DEFAULT_BUF_SIZE scriptConn.logged) P prof Scenario.bitcoinTypical.totalMessages p = some (p', .ok qs))
    (hq : Scenario.bitcoinTypical.Sizes qs) :
    2 * Scenario.bitcoinTypical.totalMessages = 200000 ∧
    p'.run.net.inner.answers.length = p.run.net.inner.answers.length + 1458 := by
  refine ⟨rfl, ?_⟩
  rw [C82_scenario_buffered hP hl hst ha h, hb, hq.requests]
  have hw : 11940000 ≤ p.run.net.inner.net.1.bytes.length := hw
  rw [bufCost_exact (by decide) _ _ _ ?_]
  · rw [sum_replicate_flatten]; rfl
  · rw [sum_replicate_flatten]
    simpa [Scenario.bitcoinTypical] using hw
  · intro n hn
    have := mem_replicate_flatten hn
    clear hn
    revert n
    decide

/-- C82: the scenario "small messages" (bufreader.rs:63-69): 200,000 calls without a `BufReader`, 281 with. -/
theorem C82_small (hP : Lawful P) {p p' : AsyncN (BufState (ConnRun (Source × Sink)))} {qs : List Payload}
    (hl : AsyncN.leftover p.sess = 0) (hst : p.state = .initReadingLength) (ha : Arrived p.run.net.inner.net.1)
    (hb : p.run.net.buf = []) (hw : Scenario.smallMessages.wireBytes ≤ p.run.net.inner.net.1.bytes.length)
    (h : readAll fuel (bufPoll DEFAULT_BUF_SIZE scriptConn.logged) P prof Scenario.smallMessages.totalMessages p = some (p', .ok qs))
    (hq : Scenario.smallMessages.Sizes qs) :
    2 * Scenario.smallMessages.totalMessages = 200000 ∧
    p'.run.net.inner.answers.length = p.run.net.inner.answers.length + 281 := by
  refine ⟨rfl, ?_⟩
  rw [C82_scenario_buffered hP hl hst ha h, hb, hq.requests]
  have hw : 2300000 ≤ p.run.net.inner.net.1.bytes.length := hw
  rw [bufCost_exact (by decide) _ _ _ ?_]
  · rw [sum_replicate_flatten]; rfl
  · rw [sum_replicate_flatten]
    simpa [Scenario.smallMessages] using hw
  · intro n hn
    have := mem_replicate_flatten hn
    clear hn
    revert n
    decide

theorem bufCost_large (rest : List Nat) {left : Nat} (h : 90172 ≤ left) :
    bufCost 8192 0 left ([3, 8209, 3, 16401, 3, 65553] ++ rest) = 5 + bufCost 8192 0 (left - 90172) rest := by
  simp only [List.cons_append, List.nil_append, bufCost]
  rw [Nat.min_eq_left (by omega : 8192 ≤ left)]
  simp only [Nat.reduceLeDiff, Nat.reduceSub, if_true, if_false]
  rw [Nat.min_eq_left (by omega : 8192 ≤ left - 8192)]
  simp only [Nat.reduceLeDiff, Nat.reduceSub, if_true, if_false]
  rw [Nat.min_eq_left (by omega)]
  simp only [Nat.reduceLeDiff, Nat.reduceSub, if_true, if_false]
  rw [show left - 8192 - 8192 - 8232 - 8192 - 57364 = left - 90172 by omega]
  omega

theorem bufCost_large_all (k : Nat) : ∀ {left : Nat}, k * 90172 ≤ left →
    bufCost 8192 0 left (List.replicate k [3, 8209, 3, 16401, 3, 65553]).flatten = k * 5 := by
  induction k with
  | zero => intro left _; rfl
  | succ k ih =>
    intro left h
    rw [Nat.succ_mul] at h
    have h1 := ih (Nat.le_sub_of_add_le h)
    have h2 := bufCost_large (List.replicate k [3, 8209, 3, 16401, 3, 65553]).flatten (Nat.le_trans (Nat.le_add_left _ _) h)
    rw [List.replicate_succ, List.flatten_cons, h2, h1, Nat.succ_mul, Nat.add_comm]

/-- C82: the scenario "large messages" (bufreader.rs:55-61): 6,000 calls without a `BufReader`, and still 5,000 with. -/
theorem C82_large (hP : Lawful P) {p p' : AsyncN (BufState (ConnRun (Source × Sink)))} {qs : List Payload}
    (hl : AsyncN.leftover p.sess = 0) (hst : p.state = .initReadingLength) (ha : Arrived p.run.net.inner.net.1)
    (hb : p.run.net.buf = []) (hw : Scenario.largeMessages.wireBytes ≤ p.run.net.inner.net.1.bytes.length)
    (h : readAll fuel (bufPoll DEFAULT_BUF_SIZE scriptConn.logged) P prof Scenario.largeMessages.totalMessages p = some (p', .ok qs))
    (hq : Scenario.largeMessages.Sizes qs) :
    2 * Scenario.largeMessages.totalMessages = 6000 ∧
    p'.run.net.inner.answers.length = p.run.net.inner.answers.length + 5000 := by
  refine ⟨rfl, ?_⟩
  rw [C82_scenario_buffered hP hl hst ha h, hb, hq.requests]
  have hw : 90172000 ≤ p.run.net.inner.net.1.bytes.length := hw
  have := bufCost_large_all 1000 hw
  exact congrArg _ this

/-! ## The server of the example -/

theorem dumpOnce_calls {N : PollConn σ} : ∀ {qs : List Payload} {p p1 p2 : AsyncN σ} {cs : List Call} {xs : List Answer},
    dumpOnce fuel N P prof qs p = some (p1, .ok ()) → p1.calls fuel N P prof cs = some (p2, xs) →
    p.calls fuel N P prof (qs.map .write ++ cs) = some (p2, qs.map (fun _ => .wrote (.ok ())) ++ xs) := by
  intro qs
  induction qs with
  | nil =>
    intro p p1 p2 cs xs h hc
    simp only [dumpOnce, Option.some.injEq, Prod.mk.injEq] at h
    obtain ⟨rfl, -⟩ := h
    exact hc
  | cons q qs ih =>
    intro p p1 p2 cs xs h hc
    unfold dumpOnce at h
    cases hw : AsyncN.write fuel N P prof p q with
    | none => rw [hw] at h; simp at h
    | some z =>
    obtain ⟨p3, z⟩ := z
    rw [hw] at h
    rcases z with u | e | _
    · have := ih h hc
      simp only [List.map_cons, List.cons_append, AsyncN.calls, hw, this]
    · simp at h
    · simp at h

theorem dumpAll_calls {N : PollConn σ} {qs : List Payload} : ∀ {n : Nat} {p p' : AsyncN σ},
    dumpAll fuel N P prof qs n p = some (p', .ok ()) →
    p.calls fuel N P prof ((List.replicate n qs).flatten.map .write) =
      some (p', (List.replicate n qs).flatten.map fun _ => .wrote (.ok ())) := by
  intro n
  induction n with
  | zero =>
    intro p p' h
    simp only [dumpAll, Option.some.injEq, Prod.mk.injEq] at h
    obtain ⟨rfl, -⟩ := h
    rfl
  | succ n ih =>
    intro p p' h
    unfold dumpAll at h
    cases hw : dumpOnce fuel N P prof qs p with
    | none => rw [hw] at h; simp at h
    | some z =>
    obtain ⟨p1, z⟩ := z
    rw [hw] at h
    rcases z with u | e | _
    · have := dumpOnce_calls hw (ih h)
      simp only [List.replicate_succ, List.flatten_cons, List.map_append, this]
    · simp at h
    · simp at h

theorem writes_map (qs : List Payload) : Call.writes (qs.map .write) = qs := by
  induction qs with
  | nil => rfl
  | cons q qs ih => simp only [List.map_cons, Call.writes, ih]

theorem wrote_map {α : Type} (qs : List α) : ∀ x ∈ Answer.writes (qs.map fun _ => .wrote (.ok ())), x = .ok () := by
  induction qs with
  | nil => simp [Answer.writes]
  | cons q qs ih => simpa [Answer.writes] using ih

theorem stream_length (hP : Lawful P) (kL kP : Bytes) : ∀ (ms : List (UInt8 × Bytes)) (n : Nat) (aad : Bytes),
    (Spec.packetStream P kL kP n aad ms).length = (ms.map fun m => m.2.length + 20).sum := by
  intro ms
  induction ms with
  | nil => intro n aad; rfl
  | cons m ms ih =>
    intro n aad
    simp only [Spec.packetStream, List.length_append, rawPacket_length hP, ih, List.map_cons, List.sum_cons]

/-- C82, the server (bufreader.rs:125-154) on any transport: after the handshake of a responder it has sent the messages of the
scenario, each as one genuine packet, in all `wireBytes` bytes. -/
theorem C82_server (hP : Lawful P) {N : PollConn σ} (hN : N.Keeps) {magic rng : Bytes} {s : Scenario} {r r' : ConnRun σ}
    (h : serverRun fuel N P prof magic rng s r = some (r', .ok ())) (hlen : r'.got.length < r.got.length + 2 ^ 35)
    (hk : s.totalMessages < 2 ^ 30) :
    ∃ peerKey packets,
      let D := Spec.directions P magic (P.ellswift rng) peerKey rng false
      packets = Spec.packetStream P D.1.1 D.1.2.1 1 []
        (List.replicate s.iterations (s.messageSizes.map fun n => (0, List.replicate n 0x42))).flatten ∧
      r'.sent = r.sent ++ (Spec.ownTranscript P D.1 (P.ellswift rng) [] [] ++ packets) ∧ packets.length = s.wireBytes := by
  unfold serverRun at h
  cases hnew : AsyncN.new fuel N P prof magic .responder rng none none r with
  | none => rw [hnew] at h; simp at h
  | some z =>
  obtain ⟨r1, z⟩ := z
  rw [hnew] at h
  cases z with
  | err e => simp at h
  | panic => simp at h
  | ok p =>
  simp only at h
  cases hd : dumpAll fuel N P prof s.payloads s.iterations p with
  | none => rw [hd] at h; simp at h
  | some z =>
  obtain ⟨p', z⟩ := z
  rw [hd] at h
  simp only [Option.some.injEq, Prod.mk.injEq] at h
  obtain ⟨rfl, rfl⟩ := h
  have hc := dumpAll_calls hd
  have hn : ((List.replicate s.iterations s.payloads).flatten.map Call.write).length = s.totalMessages := by
    simp [Scenario.totalMessages, Scenario.payloads, Nat.mul_comm]
  obtain ⟨peerKey, garbage, decoys, version, ms, held, -, -, -, -, hs⟩ :=
    C66_connection_async hP hN (by simp) hnew hc hlen (by rw [hn]; exact hk) (wrote_map _)
  have hm : ((List.replicate s.iterations s.payloads).flatten).map headed =
      (List.replicate s.iterations (s.messageSizes.map fun n => ((0 : UInt8), List.replicate n (0x42 : UInt8)))).flatten := by
    rw [List.map_flatten, List.map_replicate]
    congr 2
    simp only [Scenario.payloads, List.map_map]
    apply List.map_congr_left
    intro n _
    rfl
  rw [writes_map, hm] at hs
  refine ⟨peerKey, _, rfl, hs, ?_⟩
  rw [stream_length hP, List.map_flatten, List.map_replicate, sum_replicate_flatten]
  simp only [List.map_map, Scenario.wireBytes, Scenario.totalBytes, Scenario.totalMessages]
  have : ∀ l : List Nat, (l.map ((fun m : UInt8 × Bytes => m.2.length + 20) ∘ fun n => ((0 : UInt8), List.replicate n (0x42 : UInt8)))).sum =
      l.sum + 20 * l.length := by
    intro l
    induction l with
    | nil => rfl
    | cons n l ih => simp only [List.map_cons, List.sum_cons, ih, Function.comp, List.length_replicate, List.length_cons]; omega
  rw [this, Nat.mul_comm, Nat.add_mul, Nat.mul_assoc]

/-! ## Cases -/

/-- A small scenario. -/
def tinyScenario : Scenario := ⟨[1, 2, 3], 2⟩

/-- What the server of the example sends for it to the client with this key, without garbage and decoys. -/
def tinyReply : Bytes :=
  let key := toy.ellswift (leBytes 32 5)
  let D := Spec.directions toy (leBytes 4 7) key (toy.ellswift (leBytes 32 3)) (leBytes 32 5) false
  Spec.peerTranscript toy D.1 key [] [] (0, []) ++
    Spec.packetStream toy D.1.1 D.1.2.1 1 [] (List.replicate 2 [(0, [0x42]), (0, [0x42, 0x42]), (0, [0x42, 0x42, 0x42])]).flatten

/-- What the client sends. -/
def tinyHello : Bytes :=
  let key := toy.ellswift (leBytes 32 3)
  let D := Spec.directions toy (leBytes 4 7) key (toy.ellswift (leBytes 32 5)) (leBytes 32 3) true
  Spec.ownTranscript toy D.1 key [] []

/-- Whether all bytes have arrived. -/
def Source.arrived : Source → Bool
  | [] => true
  | [.data _] => true
  | _ => false

/-- The server. -/
example : (match serverRun 200 scriptConn toy .debug (leBytes 4 7) (leBytes 32 5) tinyScenario
      ⟨([.data tinyHello], ⟨[.accept 5, .pending], [], []⟩), [], []⟩ with
    | some (r, .ok ()) => r.sent == tinyReply && tinyScenario.wireBytes == 132
    | _ => false) = true := by decide +kernel

/-- The clients: two calls for each of the six messages; five for all of them with a buffer of 32 bytes; one with 8192. -/
example : (match AsyncN.new 200 scriptConn toy .debug (leBytes 4 7) .initiator (leBytes 32 3) none none
      ⟨([.data tinyReply], ⟨[], [], []⟩), [], []⟩ with
    | some (_, .ok p) =>
      AsyncN.leftover p.sess == 0 && p.state == .initReadingLength && p.run.net.1.arrived &&
      (match readAll 200 scriptConn toy .debug tinyScenario.totalMessages p with
      | some (p', .ok qs) => p'.run.answers.length == p.run.answers.length + 12 &&
          qs.map (fun q => (q.contents.getD []).length) == [1, 2, 3, 1, 2, 3]
      | _ => false) &&
      (match p.calls 200 scriptConn toy .debug [.read, .write (.genuine [7]), .read] with
      | some (p', xs) => p'.run.answers.length == p.run.answers.length + 4 && xs.all Answer.fine
      | _ => false)
    | _ => false) = true := by decide +kernel

def tinyBuffered (cap : Nat) (calls : Nat) : Bool :=
  match AsyncN.new 200 (bufPoll cap scriptConn.logged) toy .debug (leBytes 4 7) .initiator (leBytes 32 3) none none
      (bufStart ([.data (tinyReply.take 100), .data (tinyReply.drop 100)], ⟨[], [], []⟩)) with
  | some (_, .ok p) =>
    AsyncN.leftover p.sess == 0 && p.state == .initReadingLength && p.run.net.inner.net.1.arrived && p.run.net.buf == [] &&
    p.run.net.inner.net.1.bytes.length == 132 &&
    (match readAll 200 (bufPoll cap scriptConn.logged) toy .debug tinyScenario.totalMessages p with
    | some (p', .ok qs) => p'.run.net.inner.answers.length == p.run.net.inner.answers.length + calls &&
        calls == bufCost cap 0 132 (qs.flatMap Payload.requests) &&
        qs.map (fun q => (q.contents.getD []).length) == [1, 2, 3, 1, 2, 3]
    | _ => false) &&
    (match p.calls 200 (bufPoll cap scriptConn.logged) toy .debug (List.replicate 6 .read) with
    | some (p', xs) => p'.run.net.inner.answers.length == p.run.net.inner.answers.length + calls && xs.all Answer.fine
    | _ => false)
  | _ => false

example : tinyBuffered 32 5 = true ∧ tinyBuffered 8192 1 = true := by decide +kernel

/-- The same with the blocking API. -/
example : (match SyncN.new 200 scriptConn.toConn toy .debug (leBytes 4 7) .initiator (leBytes 32 3) none none
      ⟨([.data tinyReply], ⟨[], [], []⟩), [], []⟩,
      SyncN.new 200 (bufConn 32 scriptConn.toConn.logged) toy .debug (leBytes 4 7) .initiator (leBytes 32 3) none none
      (bufStart ([.data (tinyReply.take 100), .data (tinyReply.drop 100)], ⟨[], [], []⟩)) with
    | some (_, .ok p), some (_, .ok q) =>
      SyncN.leftover p.sess == 0 && p.run.net.1.arrived && SyncN.leftover q.sess == 0 && q.run.net.inner.net.1.arrived &&
      (match p.calls 200 scriptConn.toConn toy .debug [.read, .read, .write (.genuine [7]), .read, .read, .read, .read],
        q.calls 200 (bufConn 32 scriptConn.toConn.logged) toy .debug [.read, .read, .write (.genuine [7]), .read, .read, .read, .read] with
      | some (p', xs), some (q', ys) => p'.run.answers.length == p.run.answers.length + 12 &&
          q'.run.net.inner.answers.length == q.run.net.inner.answers.length + 5 && xs.all Answer.fine && xs == ys
      | _, _ => false)
    | _, _ => false) = true := by decide +kernel

/-- Whole clients, on bytes that arrive in two pieces: 17 calls that give bytes, and two through a `BufReader` of 8192 bytes.
With a peer that sends garbage, what comes with it is not read from the transport again. -/
example : (match clientRun 200 scriptConn toy .debug (leBytes 4 7) (leBytes 32 3) tinyScenario
      ⟨([.data (tinyReply.take 70), .data (tinyReply.drop 70)], ⟨[], [], []⟩), [], []⟩,
      bufferedClientRun 200 scriptConn toy .debug (leBytes 4 7) (leBytes 32 3) tinyScenario
      ([.data (tinyReply.take 70), .data (tinyReply.drop 70)], ⟨[], [], []⟩) with
    | some (r, .ok qs), some (r', .ok qs') => dataReads r.answers == 17 && dataReads r'.net.inner.answers == 2 && qs == qs' &&
        qs.length == 6
    | _, _ => false) = true := by decide +kernel

/-- The garbage and everything after it come with one call: the message costs no call then. -/
example : (match SyncN.new 200 scriptConn.toConn toy .debug (leBytes 4 7) .initiator (leBytes 32 3) none none
        ⟨([.data (eagerReply (toy.ellswift (leBytes 32 3)))], ⟨[], [], []⟩), [], []⟩,
      AsyncN.new 200 scriptConn toy .debug (leBytes 4 7) .initiator (leBytes 32 3) none none
        ⟨([.data (eagerReply (toy.ellswift (leBytes 32 3)))], ⟨[], [], []⟩), [], []⟩ with
    | some (_, .ok p), some (_, .ok q) =>
      (match p.calls 200 scriptConn.toConn toy .debug [.read], q.calls 200 scriptConn toy .debug [.read] with
      | some (p', xs), some (q', ys) => (Answer.payloads xs).length == 1 && (Answer.payloads ys).length == 1 &&
          dataReads p'.run.answers == dataReads p.run.answers && SyncN.leftover p.sess == 23 &&
          dataReads q'.run.answers == dataReads q.run.answers && AsyncN.leftover q.sess == 23
      | _, _ => false)
    | _, _ => false) = true := by decide +kernel

end Bip324
