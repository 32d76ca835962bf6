import Verif.Lemmas.Fuel

/-! # A script is a transport, and the code over it ends with the result of the script -/

namespace Bip324

variable {P : Prims} {prof : Profile} {S T K : Type}

/-- One `write` on a script: rest of the script, bytes taken, result. -/
def writeGo : List WEv → Bytes → List WEv × Bytes × Except ErrorKind Nat
  | [], buf => ([], buf, .ok buf.length)
  | .pending :: s, buf => writeGo s buf
  | .fail k :: s, _ => (s, [], .error k)
  | .accept n :: s, buf => (s, buf.take n, .ok (min n buf.length))

/-- A script as a transport. -/
def scriptConn : PollConn (Source × Sink) where
  read s n := some (((s.1.read n).1, s.2), (s.1.read n).2)
  write s b := some ((s.1, ⟨(writeGo s.2.script b).1, s.2.flushes, s.2.out ++ (writeGo s.2.script b).2.1⟩),
    (writeGo s.2.script b).2.2)
  flush s := some ((s.1, s.2.flush.1), s.2.flush.2)
  pollRead s n := (((s.1.pollRead n).1, s.2), (s.1.pollRead n).2)

/-- With enough fuel the result is `a`. -/
def Ends {α : Type} (F : Nat → Option α) (a : α) : Prop := ∃ f0, ∀ f, f0 ≤ f → F f = some a

/-- A reading function that always answers, as the reader `R` does on the view `v`, and leaves `k` alone. -/
def ReadsLike (rd : S → Nat → Option (S × ReadRes)) (R : Reader T) (v : S → T) (k : S → K) : Prop :=
  ∀ s n, ∃ s', rd s n = some (s', (R.read (v s) n).2) ∧ v s' = (R.read (v s) n).1 ∧ k s' = k s

theorem readRun_like : ReadsLike scriptConn.readRun Source.reader (fun r => r.net.1) (fun r => r.net.2) := by
  intro r n
  simp only [Conn.readRun, scriptConn]
  have h : Source.reader.read r.net.1 n = r.net.1.read n := rfl
  rw [h]
  cases r.net.1.read n with
  | mk s x => cases x <;> exact ⟨_, rfl, rfl, rfl⟩

theorem readExact_eq (R : Reader T) (retry : Bool) (t : T) (need : Nat) (acc : Bytes) :
    R.readExact retry t need acc =
      if need = 0 then (t, .ok acc)
      else
        match R.read t need with
        | (s', .ok []) => (s', .error .unexpectedEof)
        | (s', .ok (b :: bs)) => R.readExact retry s' (need - (b :: bs).length) (acc ++ (b :: bs))
        | (s', .err k) => if retry && k == .interrupted then R.readExact retry s' need acc else (s', .error k) := by
  rw [Reader.readExact]
  split
  · rfl
  · cases h : R.read t need with
    | mk s' x =>
      rcases x with (_ | ⟨b, bs⟩) | k <;> simp only

theorem readExactN_ends {rd : S → Nat → Option (S × ReadRes)} {R : Reader T} {v : S → T} {k : S → K}
    (h : ReadsLike rd R v k) (retry : Bool) (s : S) (need : Nat) (acc : Bytes) :
    ∃ s', Ends (fun f => readExactN f rd retry s need acc) (s', (R.readExact retry (v s) need acc).2) ∧
      v s' = (R.readExact retry (v s) need acc).1 ∧ k s' = k s := by
  induction hz : R.size (v s) using Nat.strongRecOn generalizing s need acc with
  | _ z ih =>
  by_cases h0 : need = 0
  · refine ⟨s, ⟨1, fun f hf => ?_⟩, ?_, rfl⟩
    · obtain ⟨f, rfl⟩ : ∃ g, f = g + 1 := ⟨f - 1, by omega⟩
      simp only [readExactN, readExact_eq R retry (v s), if_pos h0]
    · rw [readExact_eq, if_pos h0]
  · obtain ⟨s1, h1, h2, h3⟩ := h s need
    have hd := R.dec (v s) need (R.read (v s) need).1 (R.read (v s) need).2 (by omega) rfl
    rw [readExact_eq, if_neg h0]
    cases hr : R.read (v s) need with
    | mk t x =>
    rw [hr] at h1 h2 hd
    simp only at h1 h2 hd
    rcases x with (_ | ⟨b, bs⟩) | e
    · refine ⟨s1, ⟨1, fun f hf => ?_⟩, h2, h3⟩
      obtain ⟨f, rfl⟩ : ∃ g, f = g + 1 := ⟨f - 1, by omega⟩
      simp only [readExactN, if_neg h0, h1]
    · obtain ⟨s', ⟨f0, i1⟩, i2, i3⟩ := ih (R.size (v s1)) (by rw [h2]; simp at hd; omega) s1 (need - (b :: bs).length)
        (acc ++ (b :: bs)) rfl
      rw [h2] at i1 i2
      refine ⟨s', ⟨f0 + 1, fun f hf => ?_⟩, i2, i3.trans h3⟩
      obtain ⟨f, rfl⟩ : ∃ g, f = g + 1 := ⟨f - 1, by omega⟩
      simp only [readExactN, if_neg h0, h1]
      exact i1 f (by omega)
    · by_cases hk : (retry && e == .interrupted) = true
      · obtain ⟨s', ⟨f0, i1⟩, i2, i3⟩ := ih (R.size (v s1)) (by rw [h2]; simp at hd; omega) s1 need acc rfl
        rw [h2] at i1 i2
        simp only [if_pos hk]
        refine ⟨s', ⟨f0 + 1, fun f hf => ?_⟩, i2, i3.trans h3⟩
        obtain ⟨f, rfl⟩ : ∃ g, f = g + 1 := ⟨f - 1, by omega⟩
        simp only [readExactN, if_neg h0, h1, if_pos hk]
        exact i1 f (by omega)
      · simp only [if_neg hk]
        refine ⟨s1, ⟨1, fun f hf => ?_⟩, h2, h3⟩
        obtain ⟨f, rfl⟩ : ∃ g, f = g + 1 := ⟨f - 1, by omega⟩
        simp only [readExactN, if_neg h0, h1, if_neg hk]

/-- A `write` without the `pending`s before it. -/
theorem writeRun_script (r : ConnRun (Source × Sink)) (b : Bytes) : ∃ r', scriptConn.writeRun r b =
      some (r', (writeGo r.net.2.script b).2.2) ∧
    r'.net = (r.net.1, ⟨(writeGo r.net.2.script b).1, r.net.2.flushes, r.net.2.out ++ (writeGo r.net.2.script b).2.1⟩) := by
  simp only [Conn.writeRun, scriptConn]
  cases (writeGo r.net.2.script b).2.2 <;> exact ⟨_, rfl, rfl⟩

theorem writeAll_cons {σ : Type} (N : Conn σ) (f : Nat) (retry : Bool) (r : ConnRun σ) (b : UInt8) (bs : Bytes) :
    N.writeAll (f + 1) retry r (b :: bs) =
      match N.writeRun r (b :: bs) with
      | none => none
      | some (r', .ok 0) => some (r', .error .writeZero)
      | some (r', .ok (n + 1)) => N.writeAll f retry r' ((b :: bs).drop (n + 1))
      | some (r', .error k) => if retry && k == .interrupted then N.writeAll f retry r' (b :: bs) else some (r', .error k) := rfl

theorem writeAllN_ends (retry : Bool) (s : List WEv) : ∀ (r : ConnRun (Source × Sink)) (buf : Bytes), r.net.2.script = s →
    ∃ r', Ends (fun f => scriptConn.writeAll f retry r buf) (r', (Sink.writeAll retry r.net.2 buf).2) ∧
      r'.net = (r.net.1, (Sink.writeAll retry r.net.2 buf).1) := by
  induction s with
  | nil =>
    rintro ⟨⟨src, snk, fl, out⟩, ans, sent⟩ buf rfl
    cases buf with
    | nil =>
      refine ⟨⟨(src, ⟨[], fl, out⟩), ans, sent⟩, ⟨1, fun f hf => ?_⟩, by simp [Sink.writeAll, writeAllGo]⟩
      obtain ⟨f, rfl⟩ : ∃ g, f = g + 1 := ⟨f - 1, by omega⟩
      simp [Conn.writeAll, Sink.writeAll, writeAllGo]
    | cons b bs =>
      obtain ⟨r', h1, h2⟩ := writeRun_script ⟨(src, ⟨[], fl, out⟩), ans, sent⟩ (b :: bs)
      simp only [writeGo, List.length_cons] at h1 h2
      refine ⟨r', ⟨2, fun f hf => ?_⟩, by simp [Sink.writeAll, writeAllGo, h2]⟩
      obtain ⟨f, rfl⟩ : ∃ g, f = g + 2 := ⟨f - 2, by omega⟩
      show scriptConn.writeAll (f + 1 + 1) retry _ (b :: bs) = _
      rw [writeAll_cons, h1]
      simp [Conn.writeAll, Sink.writeAll, writeAllGo]
  | cons e s ih =>
    rintro ⟨⟨src, ⟨scr, fl, out⟩⟩, ans, sent⟩ buf hs
    simp only at hs
    subst hs
    cases buf with
    | nil =>
      refine ⟨⟨(src, ⟨e :: s, fl, out⟩), ans, sent⟩, ⟨1, fun f hf => ?_⟩, by simp [Sink.writeAll, writeAllGo]⟩
      obtain ⟨f, rfl⟩ : ∃ g, f = g + 1 := ⟨f - 1, by omega⟩
      simp [Conn.writeAll, Sink.writeAll, writeAllGo]
    | cons b bs =>
      cases e with
      | pending =>
        -- the same call, on the rest
        obtain ⟨r', ⟨f0, h1⟩, h2⟩ := ih ⟨(src, ⟨s, fl, out⟩), ans, sent⟩ (b :: bs) rfl
        have hw : scriptConn.writeRun ⟨(src, ⟨.pending :: s, fl, out⟩), ans, sent⟩ (b :: bs) =
            scriptConn.writeRun ⟨(src, ⟨s, fl, out⟩), ans, sent⟩ (b :: bs) := by
          simp only [Conn.writeRun, scriptConn, writeGo]
        refine ⟨r', ⟨f0 + 1, fun f hf => ?_⟩, by rw [h2]; simp only [Sink.writeAll, writeAllGo]⟩
        obtain ⟨f, rfl⟩ : ∃ g, f = g + 1 := ⟨f - 1, by omega⟩
        have h1 := h1 (f + 1) (by omega)
        simp only [Conn.writeAll, hw] at h1 ⊢
        rw [h1]
        simp only [Sink.writeAll, writeAllGo]
      | fail k =>
        obtain ⟨r1, w1, w2⟩ := writeRun_script ⟨(src, ⟨.fail k :: s, fl, out⟩), ans, sent⟩ (b :: bs)
        simp only [writeGo, List.append_nil] at w1 w2
        by_cases hk : (retry && k == .interrupted) = true
        · obtain ⟨r', ⟨f0, h1⟩, h2⟩ := ih r1 (b :: bs) (by rw [w2])
          rw [w2] at h1 h2
          refine ⟨r', ⟨f0 + 1, fun f hf => ?_⟩, by rw [h2]; simp only [Sink.writeAll, writeAllGo, if_pos hk]⟩
          obtain ⟨f, rfl⟩ : ∃ g, f = g + 1 := ⟨f - 1, by omega⟩
          have h1 := h1 f (by omega)
          simp only [Conn.writeAll, w1, if_pos hk, h1]
          simp only [Sink.writeAll, writeAllGo, if_pos hk]
        · refine ⟨r1, ⟨1, fun f hf => ?_⟩, by rw [w2]; simp only [Sink.writeAll, writeAllGo, if_neg hk, List.append_nil]⟩
          obtain ⟨f, rfl⟩ : ∃ g, f = g + 1 := ⟨f - 1, by omega⟩
          simp only [Conn.writeAll, w1, if_neg hk, Sink.writeAll, writeAllGo]
      | accept n =>
        obtain ⟨r1, w1, w2⟩ := writeRun_script ⟨(src, ⟨.accept n :: s, fl, out⟩), ans, sent⟩ (b :: bs)
        simp only [writeGo] at w1 w2
        cases n with
        | zero =>
          simp only [Nat.zero_min, List.take_zero, List.append_nil] at w1 w2
          refine ⟨r1, ⟨1, fun f hf => ?_⟩, by rw [w2]; simp only [Sink.writeAll, writeAllGo, List.append_nil]⟩
          obtain ⟨f, rfl⟩ : ∃ g, f = g + 1 := ⟨f - 1, by omega⟩
          simp only [Conn.writeAll, w1, Sink.writeAll, writeAllGo]
        | succ n =>
          obtain ⟨m, hm⟩ : ∃ m, min (n + 1) (b :: bs).length = m + 1 :=
            ⟨min (n + 1) (b :: bs).length - 1, by simp only [List.length_cons]; omega⟩
          have hd : (b :: bs).drop (m + 1) = (b :: bs).drop (n + 1) := by
            rw [← hm]
            by_cases hle : n + 1 ≤ (b :: bs).length
            · rw [Nat.min_eq_left hle]
            · rw [Nat.min_eq_right (by omega), List.drop_of_length_le (by omega), List.drop_of_length_le (by omega)]
          obtain ⟨r', ⟨f0, h1⟩, h2⟩ := ih r1 ((b :: bs).drop (n + 1)) (by rw [w2])
          rw [w2] at h1 h2
          refine ⟨r', ⟨f0 + 1, fun f hf => ?_⟩, by
            rw [h2]; simp only [Sink.writeAll, writeAllGo, List.append_assoc]⟩
          obtain ⟨f, rfl⟩ : ∃ g, f = g + 1 := ⟨f - 1, by omega⟩
          have h1 := h1 f (by omega)
          show scriptConn.writeAll (f + 1) retry _ (b :: bs) = _
          rw [writeAll_cons, w1, hm]
          simp only [hd, h1]
          simp only [Sink.writeAll, writeAllGo]

theorem sendN_ends (retry : Bool) (r : ConnRun (Source × Sink)) (buf : Bytes) :
    ∃ r', Ends (fun f => scriptConn.send f retry r buf) (r', (r.net.2.send retry buf).2) ∧
      r'.net = (r.net.1, (r.net.2.send retry buf).1) := by
  obtain ⟨r1, ⟨f0, h1⟩, h2⟩ := writeAllN_ends retry _ r buf rfl
  unfold Sink.send
  cases hw : Sink.writeAll retry r.net.2 buf with
  | mk w x =>
  rw [hw] at h1 h2
  cases x with
  | error k => exact ⟨r1, ⟨f0, fun f hf => by simp only [Conn.send, h1 f hf]⟩, h2⟩
  | ok u =>
    refine ⟨{ r1 with net := (r1.net.1, r1.net.2.flush.1) }, ⟨f0, fun f hf => ?_⟩, by simp only [h2]⟩
    simp only [Conn.send, h1 f hf, Conn.flushRun]
    have : scriptConn.flush r1.net = some ((r1.net.1, r1.net.2.flush.1), r1.net.2.flush.2) := rfl
    rw [this]
    simp only [h2]

/-- How the sessions of the two models belong together, when the transport always answers. -/
structure ApiLike (A : Api) (B : ApiN) (M : ApiMatch A B) : Prop where
  reads : ReadsLike (B.read scriptConn.readRun) A.reader (fun x => M.join x.1 x.2.net.1) (fun x => x.2.net.2)

theorem syncLike : ApiLike syncApi syncN syncMatch := by
  constructor
  rintro ⟨⟨l, d⟩, r⟩ n
  obtain ⟨r', h1, h2, h3⟩ := readRun_like r n
  have hr : Source.reader.read r.net.1 n = r.net.1.read n := rfl
  have hread : ∀ src, syncApi.reader.read (syncMatch.join (l, d) src) n = SyncSession.read ⟨l, d, src⟩ n := fun _ => rfl
  simp only at h2 h3
  rw [hr] at h1 h2
  simp only [hread, syncN, SyncSession.read]
  by_cases hd : d = true
  · subst hd
    simp only [if_true, h1]
    exact ⟨_, rfl, by simp only [syncMatch, h2]; rfl, h3⟩
  · simp only [if_neg hd]
    cases hl : l.take n with
    | cons b bs => exact ⟨_, rfl, rfl, rfl⟩
    | nil =>
      simp only
      by_cases h0 : n = 0
      · rw [if_pos h0, if_pos h0]; exact ⟨_, rfl, rfl, rfl⟩
      · rw [if_neg h0, if_neg h0, h1]; exact ⟨_, rfl, by simp only [syncMatch, h2]; rfl, h3⟩

theorem asyncLike : ApiLike asyncApi asyncN asyncMatch := by
  constructor
  rintro ⟨⟨l, d⟩, r⟩ n
  obtain ⟨r', h1, h2, h3⟩ := readRun_like r n
  have hr : Source.reader.read r.net.1 n = r.net.1.read n := rfl
  have hread : ∀ src, asyncApi.reader.read (asyncMatch.join (l, d) src) n = AsyncSession.read ⟨l, d, src⟩ n := fun _ => rfl
  simp only at h2 h3
  rw [hr] at h1 h2
  simp only [hread, asyncN, AsyncSession.read]
  by_cases hd : d < l.length
  · simp only [if_pos hd]; exact ⟨_, rfl, rfl, rfl⟩
  · simp only [if_neg hd, h1]; exact ⟨_, rfl, by simp only [asyncMatch, h2]; rfl, h3⟩

/-- The result on a script: the rest of the script beside it. -/
def withRest {α : Type} (src : Source) : Outcome ProtocolError (HsReceivedGarbage × Nat × α) →
    Outcome ProtocolError (HsReceivedGarbage × Nat × α × Source)
  | .ok (h, n, b) => .ok (h, n, b, src)
  | .err e => .err e
  | .panic => .panic

theorem garbageLoopN_ends (h : HsSentVersion) (buf : Bytes) (r : ConnRun (Source × Sink)) :
    ∃ r' x, Ends (fun f => garbageLoopN f scriptConn.toConn h buf r) (r', x) ∧
      (garbageLoop h buf r.net.1).2 = withRest r'.net.1 x ∧ r'.net.2 = r.net.2 := by
  induction hz : Source.size r.net.1 using Nat.strongRecOn generalizing r h buf with
  | _ z ih =>
  rw [garbageLoop_eq]
  cases hg : h.receiveGarbage buf with
  | err e =>
    refine ⟨r, .err (.internal e), ⟨1, fun f hf => ?_⟩, rfl, rfl⟩
    obtain ⟨f, rfl⟩ : ∃ g, f = g + 1 := ⟨f - 1, by omega⟩
    simp only [garbageLoopN, hg]
  | panic =>
    refine ⟨r, .panic, ⟨1, fun f hf => ?_⟩, rfl, rfl⟩
    obtain ⟨f, rfl⟩ : ∃ g, f = g + 1 := ⟨f - 1, by omega⟩
    simp only [garbageLoopN, hg]
  | ok v =>
    cases v with
    | foundGarbage h' c =>
      refine ⟨r, .ok (h', c, buf), ⟨1, fun f hf => ?_⟩, rfl, rfl⟩
      obtain ⟨f, rfl⟩ : ∃ g, f = g + 1 := ⟨f - 1, by omega⟩
      simp only [garbageLoopN, hg]
    | needMoreData h' =>
      obtain ⟨r1, h1, h2, h3⟩ := readRun_like r 256
      have hr : Source.reader.read r.net.1 256 = r.net.1.read 256 := rfl
      simp only at h2 h3
      rw [hr] at h1 h2
      have hd := Source.read_dec r.net.1 256 (r.net.1.read 256).1 (r.net.1.read 256).2 (by omega) rfl
      simp only
      cases hx : r.net.1.read 256 with
      | mk s x =>
      rw [hx] at h1 h2 hd
      simp only at h1 h2 hd
      rcases x with (_ | ⟨b, bs⟩) | k
      · refine ⟨r1, .err .eof, ⟨1, fun f hf => ?_⟩, rfl, h3⟩
        obtain ⟨f, rfl⟩ : ∃ g, f = g + 1 := ⟨f - 1, by omega⟩
        simp only [garbageLoopN, hg, h1]
      · obtain ⟨r', x, ⟨f0, i1⟩, i2, i3⟩ := ih (Source.size r1.net.1) (by rw [h2]; simp at hd; omega) h' (buf ++ b :: bs) r1 rfl
        rw [h2] at i2
        refine ⟨r', x, ⟨f0 + 1, fun f hf => ?_⟩, ?_, i3.trans h3⟩
        · obtain ⟨f, rfl⟩ : ∃ g, f = g + 1 := ⟨f - 1, by omega⟩
          simp only [garbageLoopN, hg, h1]
          exact i1 f (by omega)
        · simp only [i2]
      · refine ⟨r1, .err (.fromIo k), ⟨1, fun f hf => ?_⟩, rfl, h3⟩
        obtain ⟨f, rfl⟩ : ∃ g, f = g + 1 := ⟨f - 1, by omega⟩
        simp only [garbageLoopN, hg, h1]

theorem versionLoopN_ends {A : Api} {B : ApiN} {M : ApiMatch A B} (hL : ApiLike A B M) (h : HsReceivedGarbage)
    (s : B.Sess × ConnRun (Source × Sink)) :
    ∃ r' x, Ends (fun f => versionLoopN f B scriptConn.toConn P prof h s) (r', x) ∧
      (versionLoop A P prof h (M.join s.1 s.2.net.1)).2 = withSession (M.join · r'.net.1) x ∧ r'.net.2 = s.2.net.2 := by
  induction hz : A.reader.size (M.join s.1 s.2.net.1) using Nat.strongRecOn generalizing h s with
  | _ z ih =>
  obtain ⟨s1, ⟨f1, e1⟩, v1, k1⟩ := readExactN_ends hL.reads B.retry s NUM_LENGTH_BYTES []
  rw [versionLoop_eq, M.retry]
  have z1 := A.reader.readExact_size B.retry (M.join s.1 s.2.net.1) NUM_LENGTH_BYTES []
  cases hr1 : A.reader.readExact B.retry (M.join s.1 s.2.net.1) NUM_LENGTH_BYTES [] with
  | mk t1 x1 =>
  have z1 := z1 _ _ hr1
  rw [hr1] at e1 v1
  simp only at e1 v1
  subst v1
  cases x1 with
  | error k =>
    refine ⟨s1.2, .err (.fromIo k), ⟨f1 + 1, fun f hf => ?_⟩, rfl, k1⟩
    obtain ⟨f, rfl⟩ : ∃ g, f = g + 1 := ⟨f - 1, by omega⟩
    simp only [versionLoopN, e1 f (by omega)]
  | ok lb =>
    simp only
    cases h2 : h.decryptPacketLen P prof lb with
    | mk hh y =>
    cases y with
    | panic =>
      refine ⟨s1.2, .panic, ⟨f1 + 1, fun f hf => ?_⟩, rfl, k1⟩
      obtain ⟨f, rfl⟩ : ∃ g, f = g + 1 := ⟨f - 1, by omega⟩
      simp only [versionLoopN, e1 f (by omega), h2]
    | err e =>
      refine ⟨s1.2, .err (.internal e), ⟨f1 + 1, fun f hf => ?_⟩, rfl, k1⟩
      obtain ⟨f, rfl⟩ : ∃ g, f = g + 1 := ⟨f - 1, by omega⟩
      simp only [versionLoopN, e1 f (by omega), h2]
    | ok n =>
      simp only
      by_cases hn : n > MAX_PACKET_SIZE_FOR_ALLOCATION
      · rw [if_pos hn]
        refine ⟨s1.2, .err (.internal .packetTooBig), ⟨f1 + 1, fun f hf => ?_⟩, rfl, k1⟩
        obtain ⟨f, rfl⟩ : ∃ g, f = g + 1 := ⟨f - 1, by omega⟩
        simp only [versionLoopN, e1 f (by omega), h2, if_pos hn]
      · rw [if_neg hn]
        obtain ⟨s2, ⟨f2, e2⟩, v2, k2⟩ := readExactN_ends hL.reads B.retry s1 n []
        have z2 := A.reader.readExact_size B.retry (M.join s1.1 s1.2.net.1) n []
        cases hr2 : A.reader.readExact B.retry (M.join s1.1 s1.2.net.1) n [] with
        | mk t2 x2 =>
        have z2 := z2 _ _ hr2
        rw [hr2] at e2 v2
        simp only at e2 v2
        subst v2
        cases x2 with
        | error k =>
          refine ⟨s2.2, .err (.fromIo k), ⟨f1 + f2 + 1, fun f hf => ?_⟩, rfl, k2.trans k1⟩
          obtain ⟨f, rfl⟩ : ∃ g, f = g + 1 := ⟨f - 1, by omega⟩
          simp only [versionLoopN, e1 f (by omega), h2, if_neg hn, e2 f (by omega)]
        | ok pb =>
          simp only
          cases h3 : hh.receiveVersion P prof pb with
          | mk bb y =>
          rcases y with (c | h2') | e | _
          · refine ⟨s2.2, .ok (c.intoSplit.1, c.intoSplit.2, s2.1), ⟨f1 + f2 + 1, fun f hf => ?_⟩, rfl, k2.trans k1⟩
            obtain ⟨f, rfl⟩ : ∃ g, f = g + 1 := ⟨f - 1, by omega⟩
            simp only [versionLoopN, e1 f (by omega), h2, if_neg hn, e2 f (by omega), h3]
          · obtain ⟨r', x, ⟨f3, i1⟩, i2, i3⟩ := ih (A.reader.size (M.join s2.1 s2.2.net.1))
              (by have := z1.2 (by decide) ⟨_, rfl⟩; omega) h2' s2 rfl
            refine ⟨r', x, ⟨f1 + f2 + f3 + 1, fun f hf => ?_⟩, ?_, i3.trans (k2.trans k1)⟩
            · obtain ⟨f, rfl⟩ : ∃ g, f = g + 1 := ⟨f - 1, by omega⟩
              simp only [versionLoopN, e1 f (by omega), h2, if_neg hn, e2 f (by omega), h3]
              exact i1 f (by omega)
            · simp only [i2]
          · refine ⟨s2.2, .err (.internal e), ⟨f1 + f2 + 1, fun f hf => ?_⟩, rfl, k2.trans k1⟩
            obtain ⟨f, rfl⟩ : ∃ g, f = g + 1 := ⟨f - 1, by omega⟩
            simp only [versionLoopN, e1 f (by omega), h2, if_neg hn, e2 f (by omega), h3]
          · refine ⟨s2.2, .panic, ⟨f1 + f2 + 1, fun f hf => ?_⟩, rfl, k2.trans k1⟩
            obtain ⟨f, rfl⟩ : ∃ g, f = g + 1 := ⟨f - 1, by omega⟩
            simp only [versionLoopN, e1 f (by omega), h2, if_neg hn, e2 f (by omega), h3]

theorem handshakeWithInitializedN_ends {A : Api} {B : ApiN} {M : ApiMatch A B} (hL : ApiLike A B M) (h : HsInitialized)
    (g : Option Bytes) (d : Option (List Bytes)) (r : ConnRun (Source × Sink)) :
    ∃ r' x log, Ends (fun f => handshakeWithInitializedN f B scriptConn.toConn P prof h g d r) (r', x) ∧
      handshakeWithInitialized A P prof h g d r.net.1 r.net.2 = (r'.net.2, log, withSession (M.join · r'.net.1) x) := by
  unfold handshakeWithInitialized
  rw [M.retry]
  cases hk : h.sendKey g (zeros (HsInitialized.sendKeyLen g)) with
  | mk kb y =>
  cases y with
  | panic => exact ⟨r, .panic, _, ⟨0, fun f _ => by simp only [handshakeWithInitializedN, hk]⟩, rfl⟩
  | err e => exact ⟨r, .err (.internal e), _, ⟨0, fun f _ => by simp only [handshakeWithInitializedN, hk]⟩, rfl⟩
  | ok h1 =>
  simp only
  obtain ⟨r1, ⟨f1, e1⟩, v1⟩ := sendN_ends B.retry r kb
  cases hs1 : r.net.2.send B.retry kb with
  | mk w1 y =>
  rw [hs1] at e1 v1
  simp only at e1 v1
  cases y with
  | error k =>
    exact ⟨r1, .err (.fromIo k), _, ⟨f1, fun f hf => by simp only [handshakeWithInitializedN, hk, e1 f hf]⟩, by rw [v1]; rfl⟩
  | ok u =>
  simp only
  obtain ⟨r2, ⟨f2, e2⟩, v2, k2⟩ := readExactN_ends readRun_like B.retry r1 NUM_ELLIGATOR_SWIFT_BYTES []
  simp only [v1] at e2 v2 k2
  cases hr2 : Source.reader.readExact B.retry r.net.1 NUM_ELLIGATOR_SWIFT_BYTES [] with
  | mk src2 y =>
  rw [hr2] at e2 v2
  simp only at e2 v2
  cases y with
  | error k =>
    exact ⟨r2, .err (.fromIo k), _, ⟨f1 + f2, fun f hf => by
      simp only [handshakeWithInitializedN, hk, e1 f (by omega), e2 f (by omega)]⟩, by rw [k2]; rfl⟩
  | ok rk =>
  simp only
  cases h3 : h1.receiveKey P rk with
  | panic => exact ⟨r2, .panic, _, ⟨f1 + f2, fun f hf => by
      simp only [handshakeWithInitializedN, hk, e1 f (by omega), e2 f (by omega), h3]⟩, by rw [k2]; rfl⟩
  | err e => exact ⟨r2, .err (.internal e), _, ⟨f1 + f2, fun f hf => by
      simp only [handshakeWithInitializedN, hk, e1 f (by omega), e2 f (by omega), h3]⟩, by rw [k2]; rfl⟩
  | ok h4 =>
  simp only
  cases hv : h4.sendVersion P prof (zeros (HsReceivedKey.sendVersionLen d)) d with
  | mk vb y =>
  cases y with
  | panic => exact ⟨r2, .panic, _, ⟨f1 + f2, fun f hf => by
      simp only [handshakeWithInitializedN, hk, e1 f (by omega), e2 f (by omega), h3, hv]⟩, by rw [k2]; rfl⟩
  | err e => exact ⟨r2, .err (.internal e), _, ⟨f1 + f2, fun f hf => by
      simp only [handshakeWithInitializedN, hk, e1 f (by omega), e2 f (by omega), h3, hv]⟩, by rw [k2]; rfl⟩
  | ok h5 =>
  simp only
  obtain ⟨r3, ⟨f3, e3⟩, v3⟩ := sendN_ends B.retry r2 vb
  rw [k2] at e3 v3
  cases hs3 : w1.send B.retry vb with
  | mk w3 y =>
  rw [hs3] at e3 v3
  simp only at e3 v3
  cases y with
  | error k => exact ⟨r3, .err (.fromIo k), _, ⟨f1 + f2 + f3, fun f hf => by
      simp only [handshakeWithInitializedN, hk, e1 f (by omega), e2 f (by omega), h3, hv, e3 f (by omega)]⟩, by rw [v3]; rfl⟩
  | ok u =>
  simp only
  obtain ⟨r4, ⟨f4, e4⟩, v4, k4⟩ := readExactN_ends readRun_like B.retry r3 NUM_GARBAGE_TERMINATOR_BYTES []
  simp only [v3, v2] at e4 v4 k4
  cases hr4 : Source.reader.readExact B.retry src2 NUM_GARBAGE_TERMINATOR_BYTES [] with
  | mk src4 y =>
  rw [hr4] at e4 v4
  simp only at e4 v4
  cases y with
  | error k => exact ⟨r4, .err (.fromIo k), _, ⟨f1 + f2 + f3 + f4, fun f hf => by
      simp only [handshakeWithInitializedN, hk, e1 f (by omega), e2 f (by omega), h3, hv, e3 f (by omega), e4 f (by omega)]⟩,
      by rw [k4]; rfl⟩
  | ok gb =>
  simp only
  obtain ⟨r5, x5, ⟨f5, e5⟩, v5, k5⟩ := garbageLoopN_ends h5 gb r4
  rw [v4] at v5
  cases hg5 : garbageLoop h5 gb src4 with
  | mk glog y =>
  rw [hg5] at v5
  simp only at v5
  subst v5
  cases x5 with
  | panic => exact ⟨r5, .panic, _, ⟨f1 + f2 + f3 + f4 + f5, fun f hf => by
      simp only [handshakeWithInitializedN, hk, e1 f (by omega), e2 f (by omega), h3, hv, e3 f (by omega), e4 f (by omega),
        e5 f (by omega)]⟩, by rw [k5, k4]; rfl⟩
  | err e => exact ⟨r5, .err e, _, ⟨f1 + f2 + f3 + f4 + f5, fun f hf => by
      simp only [handshakeWithInitializedN, hk, e1 f (by omega), e2 f (by omega), h3, hv, e3 f (by omega), e4 f (by omega),
        e5 f (by omega)]⟩, by rw [k5, k4]; rfl⟩
  | ok v =>
  obtain ⟨h6, n6, b6⟩ := v
  simp only [withRest]
  obtain ⟨r7, x7, ⟨f7, e7⟩, v7, k7⟩ := versionLoopN_ends (P := P) (prof := prof) hL h6 (B.mkSess (b6.drop n6), r5)
  rw [M.made]
  simp only at v7 k7
  cases hx : versionLoop A P prof h6 (M.join (B.mkSess (b6.drop n6)) r5.net.1) with
  | mk plog y =>
  rw [hx] at v7
  simp only at v7
  subst v7
  refine ⟨r7, x7, ⟨glog, plog⟩, ⟨f1 + f2 + f3 + f4 + f5 + f7, fun f hf => ?_⟩, by rw [k7, k5, k4]⟩
  simp only [handshakeWithInitializedN, hk, e1 f (by omega), e2 f (by omega), h3, hv, e3 f (by omega), e4 f (by omega),
        e5 f (by omega)]
  exact e7 f (by omega)

theorem handshakeN_ends {A : Api} {B : ApiN} {M : ApiMatch A B} (hL : ApiLike A B M) (magic : Bytes) (role : Role)
    (rng : Bytes) (g : Option Bytes) (d : Option (List Bytes)) (r : ConnRun (Source × Sink)) :
    ∃ r' x log, Ends (fun f => handshakeN f B scriptConn.toConn P prof magic role rng g d r) (r', x) ∧
      handshake A P prof magic role rng g d r.net.1 r.net.2 = (r'.net.2, log, withSession (M.join · r'.net.1) x) := by
  unfold handshake
  cases hh : HsInitialized.newWithRng P prof magic role rng with
  | panic => exact ⟨r, .panic, _, ⟨0, fun f _ => by simp only [handshakeN, hh]⟩, rfl⟩
  | err e => exact ⟨r, .err (.internal e), _, ⟨0, fun f _ => by simp only [handshakeN, hh]⟩, rfl⟩
  | ok h =>
    obtain ⟨r', x, log, ⟨f0, e⟩, hx⟩ := handshakeWithInitializedN_ends (P := P) (prof := prof) hL h g d r
    exact ⟨r', x, log, ⟨f0, fun f hf => by simp only [handshakeN, hh]; exact e f hf⟩, hx⟩

theorem syncReadN_ends (c : InboundCipher) (s : (Bytes × Bool) × ConnRun (Source × Sink)) :
    ∃ c' s' x, Ends (fun f => syncReadN f scriptConn.toConn P prof c s) ((c', s'), x) ∧
      SyncReader.read P prof ⟨c, ⟨s.1.1, s.1.2, s.2.net.1⟩⟩ = (⟨c', ⟨s'.1.1, s'.1.2, s'.2.net.1⟩⟩, x) ∧
      s'.2.net.2 = s.2.net.2 := by
  have hread : ∀ (s : (Bytes × Bool) × ConnRun (Source × Sink)) n, ∃ s',
      Ends (fun f => readExactN f (syncN.read scriptConn.readRun) true s n [])
        (s', (SyncSession.reader.readExact true ⟨s.1.1, s.1.2, s.2.net.1⟩ n []).2) ∧
      (⟨s'.1.1, s'.1.2, s'.2.net.1⟩ : SyncSession) = (SyncSession.reader.readExact true ⟨s.1.1, s.1.2, s.2.net.1⟩ n []).1 ∧
      s'.2.net.2 = s.2.net.2 := fun s n => readExactN_ends syncLike.reads true s n []
  obtain ⟨s1, ⟨f1, e1⟩, v1, k1⟩ := hread s NUM_LENGTH_BYTES
  unfold SyncReader.read
  simp only
  cases hr1 : SyncSession.reader.readExact true ⟨s.1.1, s.1.2, s.2.net.1⟩ NUM_LENGTH_BYTES [] with
  | mk t1 x1 =>
  rw [hr1] at e1 v1
  simp only at e1 v1
  subst v1
  cases x1 with
  | error k => exact ⟨c, s1, _, ⟨f1, fun f hf => by simp only [syncReadN, e1 f hf]⟩, rfl, k1⟩
  | ok lb =>
  simp only
  cases h2 : c.decryptPacketLen P prof lb with
  | mk c2 y =>
  cases y with
  | panic => exact ⟨c2, s1, _, ⟨f1, fun f hf => by simp only [syncReadN, e1 f hf, h2]⟩, rfl, k1⟩
  | err e => exact ⟨c2, s1, _, ⟨f1, fun f hf => by simp only [syncReadN, e1 f hf, h2]⟩, rfl, k1⟩
  | ok n =>
  simp only
  obtain ⟨s2, ⟨f2, e2⟩, v2, k2⟩ := hread s1 n
  cases hr2 : SyncSession.reader.readExact true ⟨s1.1.1, s1.1.2, s1.2.net.1⟩ n [] with
  | mk t2 x2 =>
  rw [hr2] at e2 v2
  simp only at e2 v2
  subst v2
  cases x2 with
  | error k => exact ⟨c2, s2, _, ⟨f1 + f2, fun f hf => by
      simp only [syncReadN, e1 f (by omega), h2, e2 f (by omega)]⟩, rfl, k2.trans k1⟩
  | ok pb =>
  simp only
  cases h3 : c2.decryptToVec P prof pb none with
  | mk c3 y =>
  cases y with
  | panic => exact ⟨c3, s2, _, ⟨f1 + f2, fun f hf => by
      simp only [syncReadN, e1 f (by omega), h2, e2 f (by omega), h3]⟩, rfl, k2.trans k1⟩
  | err e => exact ⟨c3, s2, _, ⟨f1 + f2, fun f hf => by
      simp only [syncReadN, e1 f (by omega), h2, e2 f (by omega), h3]⟩, rfl, k2.trans k1⟩
  | ok v =>
  obtain ⟨ty, pt⟩ := v
  simp only
  cases h4 : Payload.mkDecrypted prof pt with
  | none => exact ⟨c3, s2, _, ⟨f1 + f2, fun f hf => by
      simp only [syncReadN, e1 f (by omega), h2, e2 f (by omega), h3, h4]⟩, rfl, k2.trans k1⟩
  | some p => exact ⟨c3, s2, _, ⟨f1 + f2, fun f hf => by
      simp only [syncReadN, e1 f (by omega), h2, e2 f (by omega), h3, h4]⟩, rfl, k2.trans k1⟩

theorem writeN_ends (fl : Flavour) (c : OutboundCipher) (r : ConnRun (Source × Sink)) (p : Payload) :
    ∃ c' r' x, Ends (fun f => writeN f fl scriptConn.toConn P prof c r p) ((c', r'), x) ∧
      Writer.write fl P prof ⟨c, r.net.2⟩ p = (⟨c', r'.net.2⟩, x) ∧ r'.net.1 = r.net.1 := by
  have hw : Writer.write fl P prof ⟨c, r.net.2⟩ p =
      match p.contents, p.packetType with
      | some contents, some ty =>
        match encryptFor fl P prof c contents ty with
        | (c, .panic) => (⟨c, r.net.2⟩, .panic)
        | (c, .err e) => (⟨c, r.net.2⟩, .err (.internal e))
        | (c, .ok packetBuffer) =>
          match r.net.2.send fl.retry packetBuffer with
          | (s, .error k) => (⟨c, s⟩, .err (.fromIo k))
          | (s, .ok ()) => (⟨c, s⟩, .ok ())
      | _, _ => (⟨c, r.net.2⟩, .panic) := by
    cases fl with
    | sync => rfl
    | async =>
      simp only [Writer.write, Writer.writeAsync, encryptFor]
      cases p.contents <;> cases p.packetType <;> try rfl
      simp only
      rename_i cc ty
      cases c.encrypt P prof cc (zeros (OutboundCipher.encryptionBufferLen cc.length)) ty none with
      | mk c1 z => obtain ⟨b, z⟩ := z; cases z <;> rfl
  rw [hw]
  cases hc : p.contents with
  | none => exact ⟨c, r, _, ⟨0, fun f _ => by simp only [writeN, hc]⟩, rfl, rfl⟩
  | some cc =>
  cases ht : p.packetType with
  | none => exact ⟨c, r, _, ⟨0, fun f _ => by simp only [writeN, hc, ht]⟩, rfl, rfl⟩
  | some ty =>
  simp only
  cases he : encryptFor fl P prof c cc ty with
  | mk c1 y =>
  cases y with
  | panic => exact ⟨c1, r, _, ⟨0, fun f _ => by simp only [writeN, hc, ht, he]⟩, rfl, rfl⟩
  | err e => exact ⟨c1, r, _, ⟨0, fun f _ => by simp only [writeN, hc, ht, he]⟩, rfl, rfl⟩
  | ok pb =>
  simp only
  obtain ⟨r1, ⟨f1, e1⟩, v1⟩ := sendN_ends fl.retry r pb
  cases hs : r.net.2.send fl.retry pb with
  | mk w1 y =>
  rw [hs] at e1 v1
  simp only at e1 v1
  cases y with
  | error k => exact ⟨c1, r1, .err (.fromIo k), ⟨f1, fun f hf => by simp only [writeN, hc, ht, he, e1 f hf]⟩, by rw [v1], by rw [v1]⟩
  | ok u => exact ⟨c1, r1, .ok (), ⟨f1, fun f hf => by simp only [writeN, hc, ht, he, e1 f hf]⟩, by rw [v1], by rw [v1]⟩

/-- The result on a script. -/
def FillN.onScript : FillN (Source × Sink) → FillResult
  | .full s b n => .full ⟨s.1.1, s.1.2, s.2.net.1⟩ b n
  | .pending s b n => .pending ⟨s.1.1, s.1.2, s.2.net.1⟩ b n
  | .err s b n k => .err ⟨s.1.1, s.1.2, s.2.net.1⟩ b n k

/-- The sink in it. -/
def FillN.sink : FillN (Source × Sink) → Sink
  | .full s _ _ => s.2.net.2
  | .pending s _ _ => s.2.net.2
  | .err s _ _ _ => s.2.net.2

theorem sessPollN_like (s : (Bytes × Nat) × ConnRun (Source × Sink)) (n : Nat) :
    ∃ s', sessPollN scriptConn s n = (s', (AsyncSession.pollRead ⟨s.1.1, s.1.2, s.2.net.1⟩ n).2) ∧
      (⟨s'.1.1, s'.1.2, s'.2.net.1⟩ : AsyncSession) = (AsyncSession.pollRead ⟨s.1.1, s.1.2, s.2.net.1⟩ n).1 ∧
      s'.2.net.2 = s.2.net.2 := by
  unfold sessPollN AsyncSession.pollRead
  split
  · exact ⟨_, rfl, rfl, rfl⟩
  · rename_i h
    simp only [PollConn.pollRun, scriptConn]
    cases hx : s.2.net.1.pollRead n with
    | mk t x =>
    rcases x with (bs | k) | _ <;> exact ⟨_, rfl, rfl, rfl⟩

theorem pollFill_step (s : AsyncSession) (buf : Bytes) (n : Nat) :
    pollFill s buf n =
      if n < buf.length then
        match s.pollRead (buf.length - n) with
        | (s', .pending) => .pending s' buf n
        | (s', .ready (.err k)) => .err s' buf n k
        | (s', .ready (.ok [])) => .err s' buf n .connectionAborted
        | (s', .ready (.ok (b :: bs))) => pollFill s' (writeAt buf n (b :: bs)) (n + (b :: bs).length)
      else .full s buf n := by
  rw [pollFill]
  split
  · cases h : s.pollRead (buf.length - n) with
    | mk s' x => rcases x with ((_ | ⟨b, bs⟩) | k) | _ <;> simp only
  · rfl

theorem pollFillN_ends (s : (Bytes × Nat) × ConnRun (Source × Sink)) (buf : Bytes) (n : Nat) :
    ∃ x, Ends (fun f => pollFillN f scriptConn s buf n) x ∧ pollFill ⟨s.1.1, s.1.2, s.2.net.1⟩ buf n = x.onScript ∧
      x.sink = s.2.net.2 := by
  induction hz : AsyncSession.size ⟨s.1.1, s.1.2, s.2.net.1⟩ using Nat.strongRecOn generalizing s buf n with
  | _ z ih =>
  rw [pollFill_step]
  by_cases hn : n < buf.length
  · rw [if_pos hn]
    obtain ⟨s1, h1, h2, h3⟩ := sessPollN_like s (buf.length - n)
    cases hx : AsyncSession.pollRead ⟨s.1.1, s.1.2, s.2.net.1⟩ (buf.length - n) with
    | mk t x =>
    have hd := AsyncSession.pollRead_dec ⟨s.1.1, s.1.2, s.2.net.1⟩ (buf.length - n) _ _ (by omega) hx
    rw [hx] at h1 h2
    simp only at h1 h2
    subst h2
    rcases x with ((_ | ⟨b, bs⟩) | k) | _
    · refine ⟨.err s1 buf n .connectionAborted, ⟨1, fun f hf => ?_⟩, rfl, h3⟩
      obtain ⟨f, rfl⟩ : ∃ g, f = g + 1 := ⟨f - 1, by omega⟩
      simp only [pollFillN, if_pos hn, h1]
    · obtain ⟨x, ⟨f0, i1⟩, i2, i3⟩ := ih _ (by simp at hd; omega) s1 (writeAt buf n (b :: bs)) (n + (b :: bs).length) rfl
      refine ⟨x, ⟨f0 + 1, fun f hf => ?_⟩, i2, i3.trans h3⟩
      obtain ⟨f, rfl⟩ : ∃ g, f = g + 1 := ⟨f - 1, by omega⟩
      simp only [pollFillN, if_pos hn, h1]
      exact i1 f (by omega)
    · refine ⟨.err s1 buf n k, ⟨1, fun f hf => ?_⟩, rfl, h3⟩
      obtain ⟨f, rfl⟩ : ∃ g, f = g + 1 := ⟨f - 1, by omega⟩
      simp only [pollFillN, if_pos hn, h1]
    · refine ⟨.pending s1 buf n, ⟨1, fun f hf => ?_⟩, rfl, h3⟩
      obtain ⟨f, rfl⟩ : ∃ g, f = g + 1 := ⟨f - 1, by omega⟩
      simp only [pollFillN, if_pos hn, h1]
  · rw [if_neg hn]
    refine ⟨.full s buf n, ⟨1, fun f hf => ?_⟩, rfl, rfl⟩
    obtain ⟨f, rfl⟩ : ∃ g, f = g + 1 := ⟨f - 1, by omega⟩
    simp only [pollFillN, if_neg hn]

/-- The reader on a script. -/
def AsyncReaderN.onScript (r : AsyncReaderN (Source × Sink)) : AsyncReader :=
  ⟨r.cipher, ⟨r.reader.1.1, r.reader.1.2, r.reader.2.net.1⟩, r.state⟩

theorem pollPayloadN_ends (c : InboundCipher) (s : (Bytes × Nat) × ConnRun (Source × Sink)) (buf : Bytes) (n : Nat) :
    ∃ r' x, Ends (fun f => AsyncReaderN.pollPayload f scriptConn P prof c s buf n) (r', x) ∧
      AsyncReader.pollPayload P prof c ⟨s.1.1, s.1.2, s.2.net.1⟩ buf n = (r'.onScript, x) ∧
      r'.reader.2.net.2 = s.2.net.2 := by
  obtain ⟨x, ⟨f0, e1⟩, h1, h2⟩ := pollFillN_ends s buf n
  unfold AsyncReader.pollPayload
  rw [h1]
  cases x with
  | pending s1 b m => exact ⟨⟨c, s1, .readingPayload b m⟩, .pending,
      ⟨f0, fun f hf => by simp only [AsyncReaderN.pollPayload, e1 f hf]⟩, rfl, h2⟩
  | err s1 b m k => exact ⟨⟨c, s1, .readingPayload b m⟩, .ready (.err (.fromIo k)),
      ⟨f0, fun f hf => by simp only [AsyncReaderN.pollPayload, e1 f hf]⟩, rfl, h2⟩
  | full s1 b m =>
    simp only [FillN.onScript]
    cases hl : InboundCipher.decryptionBufferLen prof b.length with
    | none => exact ⟨⟨c, s1, .readingPayload b m⟩, .ready .panic,
        ⟨f0, fun f hf => by simp only [AsyncReaderN.pollPayload, e1 f hf, hl]⟩, rfl, h2⟩
    | some len =>
      simp only
      cases hd : c.decrypt P prof b (zeros len) none with
      | mk c1 y =>
      obtain ⟨pt, y⟩ := y
      cases y with
      | panic => exact ⟨⟨c1, s1, .readingPayload b m⟩, .ready .panic,
          ⟨f0, fun f hf => by simp only [AsyncReaderN.pollPayload, e1 f hf, hl, hd]⟩, rfl, h2⟩
      | err e => exact ⟨⟨c1, s1, .readingPayload b m⟩, .ready (.err (.internal e)),
          ⟨f0, fun f hf => by simp only [AsyncReaderN.pollPayload, e1 f hf, hl, hd]⟩, rfl, h2⟩
      | ok ty =>
        simp only
        cases hp : Payload.mkDecrypted prof pt with
        | none => exact ⟨⟨c1, s1, .initReadingLength⟩, .ready .panic,
            ⟨f0, fun f hf => by simp only [AsyncReaderN.pollPayload, e1 f hf, hl, hd, hp]⟩, rfl, h2⟩
        | some p => exact ⟨⟨c1, s1, .initReadingLength⟩, .ready (.ok p),
            ⟨f0, fun f hf => by simp only [AsyncReaderN.pollPayload, e1 f hf, hl, hd, hp]⟩, rfl, h2⟩

theorem pollN_ends (r : AsyncReaderN (Source × Sink)) :
    ∃ r' x, Ends (fun f => AsyncReaderN.poll f scriptConn P prof r) (r', x) ∧
      r.onScript.poll P prof = (r'.onScript, x) ∧ r'.reader.2.net.2 = r.reader.2.net.2 := by
  obtain ⟨c, s, st⟩ := r
  unfold AsyncReader.poll
  cases st with
  | readingPayload b n =>
    obtain ⟨r', x, ⟨f0, e1⟩, h1, h2⟩ := pollPayloadN_ends (P := P) (prof := prof) c s b n
    exact ⟨r', x, ⟨f0, fun f hf => by simp only [AsyncReaderN.poll]; exact e1 f hf⟩, h1, h2⟩
  | readingLength b n =>
    obtain ⟨x, ⟨f0, e1⟩, h1, h2⟩ := pollFillN_ends s b n
    simp only [AsyncReaderN.onScript]
    rw [h1]
    cases x with
    | pending s1 b m => exact ⟨⟨c, s1, .readingLength b m⟩, .pending,
        ⟨f0, fun f hf => by simp only [AsyncReaderN.poll, e1 f hf]⟩, rfl, h2⟩
    | err s1 b m k => exact ⟨⟨c, s1, .readingLength b m⟩, .ready (.err (.fromIo k)),
        ⟨f0, fun f hf => by simp only [AsyncReaderN.poll, e1 f hf]⟩, rfl, h2⟩
    | full s1 b m =>
      simp only [FillN.onScript]
      cases hd : c.decryptPacketLen P prof b with
      | mk c1 y =>
      cases y with
      | panic => exact ⟨⟨c1, s1, .readingLength b m⟩, .ready .panic,
          ⟨f0, fun f hf => by simp only [AsyncReaderN.poll, e1 f hf, hd]⟩, rfl, h2⟩
      | err e => exact ⟨⟨c1, s1, .readingLength b m⟩, .ready (.err (.internal e)),
          ⟨f0, fun f hf => by simp only [AsyncReaderN.poll, e1 f hf, hd]⟩, rfl, h2⟩
      | ok len =>
        obtain ⟨r', x, ⟨f1, e2⟩, h3, h4⟩ := pollPayloadN_ends (P := P) (prof := prof) c1 s1 (zeros len) 0
        refine ⟨r', x, ⟨f0 + f1, fun f hf => ?_⟩, h3, h4.trans h2⟩
        simp only [AsyncReaderN.poll, e1 f (by omega), hd]
        exact e2 f (by omega)

end Bip324
