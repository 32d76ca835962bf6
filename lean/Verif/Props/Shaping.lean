import Verif.Props.Traffic

/-!
# Shaping decisions: C37, C38, C41, and C36 from `ShapedProtocol::new` on
-/

namespace Bip324

variable {P : Prims} {prof : Profile} {R : Rng}

/-! ## C37 -/

/-- A call of one of the two builder methods of `TrafficConfig`. -/
inductive ConfigCall where
  | padding (s : PaddingStrategy)
  | decoy (s : DecoyStrategy)

/-- Which one it is: traffic/lib.rs:177-199. -/
def ConfigCall.apply (c : TrafficConfig) : ConfigCall → TrafficConfig
  | .padding s => c.withPadding s
  | .decoy s => c.withDecoy s

/-- C37, configuration: after `TrafficConfig::new` and any sequence of builder calls each strategy is the one chosen last for it, and
disabled if none was. -/
theorem C37_config (calls : List ConfigCall) :
    (calls.foldl ConfigCall.apply .default).padding =
      (calls.filterMap fun x => match x with | .padding s => some s | .decoy _ => none).getLast?.getD .disabled ∧
    (calls.foldl ConfigCall.apply .default).decoy =
      (calls.filterMap fun x => match x with | .padding _ => none | .decoy s => some s).getLast?.getD .disabled := by
  have key : ∀ c : TrafficConfig, (calls.foldl ConfigCall.apply c).padding =
        (calls.filterMap fun x => match x with | .padding s => some s | .decoy _ => none).getLast?.getD c.padding ∧
      (calls.foldl ConfigCall.apply c).decoy =
        (calls.filterMap fun x => match x with | .padding _ => none | .decoy s => some s).getLast?.getD c.decoy := by
    induction calls with
    | nil => intro c; exact ⟨rfl, rfl⟩
    | cons x xs ih =>
      intro c
      obtain ⟨h1, h2⟩ := ih (x.apply c)
      rw [List.foldl_cons, h1, h2]
      cases x <;>
        simp [ConfigCall.apply, TrafficConfig.withPadding, TrafficConfig.withDecoy, List.getLast?_cons]
  exact key .default

/-- Non-vacuity: both strategies chosen, one of them twice. -/
example : [ConfigCall.padding .random, .decoy .random, .padding .disabled].foldl ConfigCall.apply .default = ⟨.disabled, .random⟩ := by
  decide

theorem genDecoys_bounds (R : Rng) (n : Nat) (s : R.State) :
    (genDecoys R n s).2.1.length = n ∧
      (∀ d ∈ (genDecoys R n s).2.1, 1 ≤ d.length ∧ d.length ≤ 1024) := by
  induction n generalizing s with
  | zero => exact ⟨rfl, by simp [genDecoys]⟩
  | succ n ih =>
    simp only [genDecoys]
    obtain ⟨h1, h2⟩ := ih (R.fill (R.range s 1 MAX_DECOY_SIZE_BYTES).1 (R.range s 1 MAX_DECOY_SIZE_BYTES).2).1
    refine ⟨by simp [h1], ?_⟩
    intro d hd
    rcases List.mem_cons.1 hd with rfl | hd
    · rw [R.fill_length]
      exact R.range_mem s 1 MAX_DECOY_SIZE_BYTES (by decide)
    · exact h2 d hd

/-- C37, handshake: whatever the random numbers, at most 4095 bytes of garbage and at most 3 decoys of
1 to 1024 bytes are chosen; and none at all if the strategy is disabled. -/
theorem C37_handshake {s s' : Shaper R} {garbage : Option Bytes} {decoys : Option (List Bytes)}
    {recorded : List Nat} (h : s.handshake = (s', garbage, decoys, recorded)) :
    (garbage.getD []).length ≤ 4095 ∧ (decoys.getD []).length ≤ 3 ∧
      (∀ d ∈ decoys.getD [], 1 ≤ d.length ∧ d.length ≤ 1024) ∧
      (s.config.padding = .disabled ↔ garbage = none) ∧ (s.config.decoy = .disabled ↔ decoys = none) := by
  unfold Shaper.handshake at h
  cases hp : s.config.padding with
  | disabled =>
    cases hd : s.config.decoy with
    | disabled =>
      simp only [hp, hd, Prod.mk.injEq] at h
      obtain ⟨-, rfl, rfl, -⟩ := h
      simp
    | random =>
      simp only [hp, hd, Prod.mk.injEq] at h
      obtain ⟨-, rfl, rfl, -⟩ := h
      obtain ⟨h1, h2⟩ := genDecoys_bounds R (R.range s.rng 0 3).2 (R.range s.rng 0 3).1
      refine ⟨by simp, ?_, ?_, by simp, by simp⟩
      · simp only [Option.getD_some, h1]
        exact (R.range_mem s.rng 0 3 (by decide)).2
      · simpa only [Option.getD_some] using h2
  | random =>
    have hg : ∀ r : R.State, (R.fill (R.range r 0 TRAFFIC_MAX_NUM_GARBAGE_BYTES).1
        (R.range r 0 TRAFFIC_MAX_NUM_GARBAGE_BYTES).2).2.length ≤ 4095 := by
      intro r
      rw [R.fill_length]
      exact (R.range_mem r 0 TRAFFIC_MAX_NUM_GARBAGE_BYTES (by decide)).2
    cases hd : s.config.decoy with
    | disabled =>
      simp only [hp, hd, Prod.mk.injEq] at h
      obtain ⟨-, rfl, rfl, -⟩ := h
      exact ⟨hg _, by simp, by simp, by simp, by simp⟩
    | random =>
      simp only [hp, hd, Prod.mk.injEq] at h
      obtain ⟨-, rfl, rfl, -⟩ := h
      refine ⟨hg _, ?_, ?_, by simp, by simp⟩
      · simp only [Option.getD_some, (genDecoys_bounds R _ _).1]
        exact (R.range_mem _ 0 3 (by decide)).2
      · simpa only [Option.getD_some] using (genDecoys_bounds R _ _).2

/-- C37, session: padding and cover decoys are decoys of 1 to 1024 bytes. -/
theorem C37_session (s : Shaper R) :
    (∀ p s' d recorded, s.pad p = some (s', some d, recorded) →
      ∃ c, d = .decoy c ∧ 1 ≤ c.length ∧ c.length ≤ 1024) ∧
    (∀ s' d recorded, s.decoy = (s', some d, recorded) →
      ∃ c, d = .decoy c ∧ 1 ≤ c.length ∧ c.length ≤ 1024) := by
  have conv : ∀ d, ShaperDecoy d → ∃ c, d = .decoy c ∧ 1 ≤ c.length ∧ c.length ≤ 1024 := by
    rintro d ⟨n, h1, h2, rfl⟩
    exact ⟨zeros n, rfl, by simp [zeros, h1], by simp [zeros, h2]⟩
  exact ⟨fun p s' d rec h => conv d ((pad_some h).2.2.2.2 d rfl),
    fun s' d rec h => conv d ((decoy_some h).2.2 d rfl)⟩

/-- What two honest parties need besides garbage and decoys of admissible size (see `HonestPair`). -/
structure HonestKeys (P : Prims) (prof : Profile) (magic rngI rngR : Bytes) (gI gR : Option Bytes) :
    Prop where
  newI : Spec.UsableKey P prof rngI
  newR : Spec.UsableKey P prof rngR
  magicI : (P.ellswift rngI).take 4 ≠ magic
  magicR : (P.ellswift rngR).take 4 ≠ magic
  earlyI : NoEarlyTerminator ((Spec.expand P magic
    (Spec.ecdhSecret P (P.ellswift rngI) (P.ellswift rngR) rngI true) Spec.lblTerminators).take 16)
    (gI.getD [])
  earlyR : NoEarlyTerminator ((Spec.expand P magic
    (Spec.ecdhSecret P (P.ellswift rngI) (P.ellswift rngR) rngI true) Spec.lblTerminators).drop 16)
    (gR.getD [])

/-- C37, consequence: garbage and decoys chosen by shapers on both sides are always admissible in the
handshake, which therefore succeeds for both, with either API (so no `TooMuchGarbage`, no
`PacketTooBig`): `HonestPair` is what `honest_sessions`, `C28_end_to_end`, `C30_end_to_end` and
`C36_end_to_end` need. -/
theorem C37_acceptable {magic rngI rngR : Bytes} {sI sI' sR sR' : Shaper R} {gI gR : Option Bytes}
    {dI dR : Option (List Bytes)} {recI recR : List Nat} (hI : sI.handshake = (sI', gI, dI, recI))
    (hR : sR.handshake = (sR', gR, dR, recR)) (H : HonestKeys P prof magic rngI rngR gI gR) :
    HonestPair P prof magic rngI rngR gI gR dI dR := by
  obtain ⟨a1, a2, a3, -⟩ := C37_handshake hI
  obtain ⟨b1, b2, b3, -⟩ := C37_handshake hR
  exact { newI := H.newI, newR := H.newR, magicI := H.magicI, magicR := H.magicR,
          garbageI := a1, garbageR := b1,
          decoysI := fun d hd => by have := (a3 d hd).2; omega,
          decoysR := fun d hd => by have := (b3 d hd).2; omega,
          countI := by omega, countR := by omega, earlyI := H.earlyI, earlyR := H.earlyR }

/-- C37, both parties shaped, synchronous API: both handshakes succeed. -/
theorem C37_connects (hP : Lawful P) {magic rngI rngR : Bytes} {cI cR : TrafficConfig}
    {rI rR : R.State} {sI sR : Shaper R} {gI gR : Option Bytes}
    {dI dR : Option (List Bytes)} {recI recR : List Nat}
    (hI : Shaper.handshake (R := R) ⟨cI, rI⟩ = (sI, gI, dI, recI))
    (hR : Shaper.handshake (R := R) ⟨cR, rR⟩ = (sR, gR, dR, recR))
    (H : HonestKeys P prof magic rngI rngR gI gR) {wI wR : Sink} (hwI : wI.Reliable true)
    (hwR : wR.Reliable true) {srcI srcR tailI tailR : Source} {kI kR : ErrorKind} {moreI moreR : Bytes}
    (heI : EndsWith true tailI kI) (heR : EndsWith true tailR kR)
    (hsI : Streams false srcI (wireR P magic rngI rngR gR dR ++ moreI) tailI)
    (hsR : Streams false srcR (wireI P magic rngI rngR gI dI ++ moreR) tailR) :
    (∃ s, ShapedSys.new (R := R) P prof magic .initiator rngI cI rI srcI wI = .ok s) ∧
    (∃ s, ShapedSys.new (R := R) P prof magic .responder rngR cR rR srcR wR = .ok s) := by
  obtain ⟨iI, iR, oI, oR, -, -, fI, fR, -⟩ := honest_sessions hP (C37_acceptable hI hR H)
  obtain ⟨w1, log1, s1, h1, -⟩ := fI syncApi syncAbs wI srcI tailI kI moreI hwI heI hsI
  obtain ⟨w2, log2, s2, h2, -⟩ := fR syncApi syncAbs wR srcR tailR kR moreR hwR heR hsR
  constructor
  · simp only [ShapedSys.new, hI, SyncProtocol.new, h1]
    exact ⟨_, rfl⟩
  · simp only [ShapedSys.new, hR, SyncProtocol.new, h2]
    exact ⟨_, rfl⟩

/-- A generator whose answers are prescribed (clamped into the range asked for); it fills buffers with
a byte. -/
def listRng : Rng where
  State := List Nat
  range s lo hi := (s.tail, min hi (max lo (s.headD lo)))
  range_mem s lo hi h := by simp only; omega
  fill s n := (s.tail, List.replicate n (UInt8.ofNat (s.headD 0)))
  fill_length s n := by simp

/-- Non-vacuity of C37: the extreme choices. -/
example :
    let h := Shaper.handshake (R := listRng) ⟨⟨.random, .random⟩, [4095, 42, 3, 1, 7, 1024, 8, 2, 9]⟩
    h.2.1.map List.length = some 4095 ∧ h.2.2.1.map (List.map List.length) = some [1, 1024, 2] ∧
      h.2.2.2 = [4095, 1, 1024, 2] := by
  decide +kernel

example : (Shaper.decoy (R := listRng) ⟨⟨.random, .random⟩, [84, 5]⟩).2.1 = none ∧
    (Shaper.decoy (R := listRng) ⟨⟨.random, .random⟩, [85, 5]⟩).2.1 = some (.decoy [0, 0, 0, 0, 0]) ∧
    ((Shaper.pad (R := listRng) ⟨⟨.random, .disabled⟩, [5]⟩ (.genuine [1])).map (·.2.1))
      = some (some (.decoy [0, 0, 0, 0, 0])) := by
  decide +kernel

/-! ## C36 from the beginning -/

theorem C36_session (hP : Lawful P) {s0 : ShapedSys R} (h0 : s0.Fresh)
    (hw : s0.ws.writer.writer.Reliable true) {kL kP : Bytes} {n : Nat}
    (hat : OutboundCipher.At P kL kP n s0.ws.writer.cipher) (ls : List SysLabel)
    (hn : n + ls.length < 2 ^ 32) (hl : CallsUsable ls)
    (hfree : (s0.run P prof ls).owner = none) :
    (∀ x ∈ (s0.run P prof ls).returned, x.2 = .ok ()) ∧
    (s0.run P prof ls).called =
      (s0.run P prof ls).returned.map (·.1) ++ (s0.run P prof ls).app.inflight ∧
    ∃ sent, (s0.run P prof ls).ws.writer.writer.out = s0.ws.writer.writer.out ++ sent ∧
      ReadAs P prof s0.ws.writer.cipher sent ((s0.run P prof ls).returned.map (·.1)) :=
  C36_threads hP h0 hw ls hfree (C36_no_panic hP h0 hat ls hn hl).1

/-- The payloads for which a schedule calls `write`. -/
theorem called_mem {s : ShapedSys R} (ls : List SysLabel) {p : Payload}
    (h : p ∈ (s.run P prof ls).called) : p ∈ s.called ∨ SysLabel.call p ∈ ls := by
  induction ls generalizing s with
  | nil => exact .inl h
  | cons l ls ih =>
    rcases ih h with h | h
    · cases l with
      | call q =>
        simp only [ShapedSys.step] at h
        split at h
        · simp only at h
          rcases List.mem_append.1 h with h | h
          · exact .inl h
          · rw [List.mem_singleton.1 h]; exact .inr (by simp)
        · exact .inl h
      | drop =>
        simp only [ShapedSys.step] at h
        split at h <;> exact .inl h
      | read => exact .inl h
      | app =>
        have : (s.appStep P prof).called = s.called := by
          unfold ShapedSys.appStep
          repeat' split
          all_goals rfl
        exact .inl (this ▸ h)
      | bg =>
        have : (s.bgStep P prof).called = s.called := by
          unfold ShapedSys.bgStep
          repeat' split
          all_goals rfl
        exact .inl (this ▸ h)
    · exact .inr (List.mem_cons_of_mem _ h)

/-- C36 from the very beginning, threads.  A shaped initiator with any configuration and random numbers
connects to an honest responder; the application calls `write` any number of times, under any schedule.
Whenever the lock is free, all writes that have returned succeeded, and the responder, given everything
the initiator put on the wire, in any segmentation, connects and reads exactly these payloads, in
order, with decoys in between, and then the end of the stream.  (At most `2^32 - 5` steps, each of which
sends at most one packet; payloads up to the limit of the synchronous reader.) -/
theorem C36_end_to_end (hP : Lawful P) {magic rngI rngR : Bytes} {config : TrafficConfig} {g : R.State}
    {sh : Shaper R} {gI gR : Option Bytes} {dI dR : Option (List Bytes)} {recorded : List Nat}
    (hsh : Shaper.handshake (R := R) ⟨config, g⟩ = (sh, gI, dI, recorded))
    (H : HonestPair P prof magic rngI rngR gI gR dI dR)
    {wI wR : Sink} (hwI : wI.Reliable true) (hwR : wR.Reliable true)
    {srcI tailI : Source} {moreI : Bytes} {kI : ErrorKind} (heI : EndsWith true tailI kI)
    (hsI : Streams false srcI (wireR P magic rngI rngR gR dR ++ moreI) tailI) :
    ∃ s0, ShapedSys.new (R := R) P prof magic .initiator rngI config g srcI wI = .ok s0 ∧
    ∀ ls, CallsUsable ls → ls.length + 4 < 2 ^ 32 →
      (∀ p, SysLabel.call p ∈ ls → ∀ c, p.contents = some c → c.length ≤ 4000013) →
      ∀ s, s = s0.run P prof ls → s.owner = none →
        (∀ x ∈ s.returned, x.2 = .ok ()) ∧ s.called = s.returned.map (·.1) ++ s.app.inflight ∧
        ∀ all srcR tailR kR, s.ws.writer.writer.out = wI.out ++ all → EndsWith true tailR kR →
          Streams false srcR all tailR →
          ∃ pR, SyncProtocol.new P prof magic .responder rngR gR dR srcR wR = .ok pR ∧
            PeerReads P prof pR.reader (s.returned.map (·.1)) kR := by
  obtain ⟨iI, iR, oI, oR, hm1, hm2, fI, fR, ⟨kL, kP, hat⟩, -⟩ := honest_sessions hP H
  obtain ⟨w1, log1, s1, h1, hrel, ho1, -⟩ := fI syncApi syncAbs wI srcI tailI kI moreI hwI heI hsI
  refine ⟨_, by simp only [ShapedSys.new, hsh, SyncProtocol.new, h1]; rfl, ?_⟩
  rintro ls hl hn hz s rfl hfree
  have hd := (C37_handshake hsh).2.1
  obtain ⟨c1, c2, sent, c3, c4⟩ := C36_session (prof := prof) hP
    (ShapedSys.init_fresh ⟨⟨iI, s1⟩, ⟨oI, w1⟩⟩ sh recorded) hrel hat ls
    (by omega) hl hfree
  refine ⟨c1, c2, ?_⟩
  intro all srcR tailR kR hall heR hsR
  have : all = wireI P magic rngI rngR gI dI ++ sent := by
    rw [c3] at hall
    simp only [ShapedSys.init] at hall
    rw [ho1, List.append_assoc] at hall
    exact (List.append_cancel_left hall).symm
  subst this
  obtain ⟨w2, log2, s2, h2, -, -, st⟩ := fR syncApi syncAbs wR srcR tailR kR sent hwR heR hsR
  refine ⟨⟨⟨iR, s2⟩, ⟨oR, w2⟩⟩, by simp only [SyncProtocol.new, h2], ?_⟩
  refine c4.1 ?_ ⟨iR, s2⟩ tailR kR hm1 heR st
  intro p hp
  have hp : p ∈ (ShapedSys.run P prof (ShapedSys.init ⟨⟨iI, s1⟩, ⟨oI, w1⟩⟩ sh recorded) ls).called := by
    rw [c2]; exact List.mem_append_left _ hp
  rcases called_mem ls hp with h | h
  · cases h
  · exact hz p h

/-- C36 from the very beginning, threads, for a shaped responder. -/
theorem C36_end_to_end_responder (hP : Lawful P) {magic rngI rngR : Bytes} {config : TrafficConfig} {g : R.State}
    {sh : Shaper R} {gI gR : Option Bytes} {dI dR : Option (List Bytes)} {recorded : List Nat}
    (hsh : Shaper.handshake (R := R) ⟨config, g⟩ = (sh, gR, dR, recorded))
    (H : HonestPair P prof magic rngI rngR gI gR dI dR)
    {wI wR : Sink} (hwI : wI.Reliable true) (hwR : wR.Reliable true)
    {srcR tailR : Source} {moreR : Bytes} {kR : ErrorKind} (heR : EndsWith true tailR kR)
    (hsR : Streams false srcR (wireI P magic rngI rngR gI dI ++ moreR) tailR) :
    ∃ s0, ShapedSys.new (R := R) P prof magic .responder rngR config g srcR wR = .ok s0 ∧
    ∀ ls, CallsUsable ls → ls.length + 4 < 2 ^ 32 →
      (∀ p, SysLabel.call p ∈ ls → ∀ c, p.contents = some c → c.length ≤ 4000013) →
      ∀ s, s = s0.run P prof ls → s.owner = none →
        (∀ x ∈ s.returned, x.2 = .ok ()) ∧ s.called = s.returned.map (·.1) ++ s.app.inflight ∧
        ∀ all srcI tailI kI, s.ws.writer.writer.out = wR.out ++ all → EndsWith true tailI kI →
          Streams false srcI all tailI →
          ∃ pI, SyncProtocol.new P prof magic .initiator rngI gI dI srcI wI = .ok pI ∧
            PeerReads P prof pI.reader (s.returned.map (·.1)) kI := by
  obtain ⟨iI, iR, oI, oR, hm1, hm2, fI, fR, -, ⟨kL, kP, hat⟩⟩ := honest_sessions hP H
  obtain ⟨w1, log1, s1, h1, hrel, ho1, -⟩ := fR syncApi syncAbs wR srcR tailR kR moreR hwR heR hsR
  refine ⟨_, by simp only [ShapedSys.new, hsh, SyncProtocol.new, h1]; rfl, ?_⟩
  rintro ls hl hn hz s rfl hfree
  have hd := (C37_handshake hsh).2.1
  obtain ⟨c1, c2, sent, c3, c4⟩ := C36_session (prof := prof) hP
    (ShapedSys.init_fresh ⟨⟨iR, s1⟩, ⟨oR, w1⟩⟩ sh recorded) hrel hat ls
    (by omega) hl hfree
  refine ⟨c1, c2, ?_⟩
  intro all srcI tailI kI hall heI hsI
  have : all = wireR P magic rngI rngR gR dR ++ sent := by
    rw [c3] at hall
    simp only [ShapedSys.init] at hall
    rw [ho1, List.append_assoc] at hall
    exact (List.append_cancel_left hall).symm
  subst this
  obtain ⟨w2, log2, s2, h2, -, -, st⟩ := fI syncApi syncAbs wI srcI tailI kI sent hwI heI hsI
  refine ⟨⟨⟨iI, s2⟩, ⟨oI, w2⟩⟩, by simp only [SyncProtocol.new, h2], ?_⟩
  refine c4.1 ?_ ⟨iI, s2⟩ tailI kI hm2 heI st
  intro p hp
  have hp : p ∈ (ShapedSys.run P prof (ShapedSys.init ⟨⟨iR, s1⟩, ⟨oR, w1⟩⟩ sh recorded) ls).called := by
    rw [c2]; exact List.mem_append_left _ hp
  rcases called_mem ls hp with h | h
  · cases h
  · exact hz p h

theorem async_called_mem {s : AsyncShapedSys R} (ls : List AsyncLabel) {p : Payload}
    (h : p ∈ (s.run P prof ls).called) : p ∈ s.called ∨ AsyncLabel.call p ∈ ls := by
  induction ls generalizing s with
  | nil => exact .inl h
  | cons l ls ih =>
    rcases ih h with h | h
    · cases l with
      | call q =>
        simp only [AsyncShapedSys.step] at h
        split at h
        · split at h
          · exact .inl h
          · simp only at h
            rcases List.mem_append.1 h with h | h
            · exact .inl h
            · rw [List.mem_singleton.1 h]; exact .inr (by simp)
        · exact .inl h
      | read => exact .inl h
      | task =>
        have : (s.taskStep P prof).called = s.called := by
          unfold AsyncShapedSys.taskStep
          repeat' split
          all_goals rfl
        exact .inl (this ▸ h)
      | _ =>
        simp only [AsyncShapedSys.step] at h
        repeat' split at h
        all_goals exact .inl h
    · exact .inr (List.mem_cons_of_mem _ h)

/-- C36 from the very beginning, task.  As `C36_end_to_end`, with the asynchronous API on both sides: whenever
the task waits for something to do, what it has sent is read by the responder, under any schedule of
polls and cancellations, as the payloads of a beginning of the calls (cancelled ones included), the rest
being in the queue. -/
theorem C36_end_to_end_async (hP : Lawful P) {magic rngI rngR : Bytes} {config : TrafficConfig}
    {g : R.State}
    {sh : Shaper R} {gI gR : Option Bytes} {dI dR : Option (List Bytes)} {recorded : List Nat}
    (hsh : Shaper.handshake (R := R) ⟨config, g⟩ = (sh, gI, dI, recorded))
    (H : HonestPair P prof magic rngI rngR gI gR dI dR)
    {wI wR : Sink} (hwI : wI.Reliable false) (hwR : wR.Reliable false)
    {srcI tailI : Source} {moreI : Bytes} {kI : ErrorKind} (heI : EndsWith false tailI kI)
    (hsI : Streams false srcI (wireR P magic rngI rngR gR dR ++ moreI) tailI) :
    ∃ s0, AsyncShapedSys.new (R := R) P prof magic .initiator rngI config g srcI wI = .ok s0 ∧
    ∀ ls, AsyncCallsUsable ls → ls.length + 4 < 2 ^ 32 →
      (∀ p, AsyncLabel.call p ∈ ls → ∀ c, p.contents = some c → c.length < 2 ^ 24) →
      ∀ s, s = s0.run P prof ls →
        s.task ≠ .panicked ∧ ∀ a b, s.task = .select a b → ∃ written,
          s.called = written ++ s.queue.map (·.payload) ∧ (s.returned.map (·.1)).Sublist written ∧
          (∀ x ∈ s.returned, x.2 = .ok ()) ∧
          ∀ all srcR, s.ws.writer.writer.out = wI.out ++ all → Streams false srcR all [] →
            ∃ pR, AsyncProtocol.new P prof magic .responder rngR gR dR srcR wR = .ok pR ∧
              AsyncPeerReads P prof pR.reader written := by
  obtain ⟨iI, iR, oI, oR, hm1, hm2, fI, fR, ⟨kL, kP, hat⟩, -⟩ := honest_sessions hP H
  obtain ⟨w1, log1, s1, h1, hrel, ho1, -⟩ := fI asyncApi asyncAbs wI srcI tailI kI moreI hwI heI hsI
  refine ⟨_, by simp only [AsyncShapedSys.new, hsh, AsyncProtocol.new, h1]; rfl, ?_⟩
  rintro ls hl hn hz s rfl
  have hd := (C37_handshake hsh).2.1
  refine ⟨C36_task_no_panic hP (AsyncShapedSys.init_fresh
    ⟨⟨iI, s1, .initReadingLength⟩, ⟨oI, w1⟩⟩ sh recorded) hat ls (by omega) hl, ?_⟩
  intro a b hwait
  obtain ⟨written, c1, c2, c3, sent, c4, c5⟩ := C36_task (prof := prof) hP
    (AsyncShapedSys.init_fresh ⟨⟨iI, s1, .initReadingLength⟩, ⟨oI, w1⟩⟩ sh recorded) hrel ls hwait
  refine ⟨written, c1, c2, c3, ?_⟩
  intro all srcR hall hsR
  have : all = wireI P magic rngI rngR gI dI ++ sent := by
    rw [c4] at hall
    simp only [AsyncShapedSys.init] at hall
    rw [ho1, List.append_assoc] at hall
    exact (List.append_cancel_left hall).symm
  subst this
  have heof : EndsWith false [] .unexpectedEof := .inl ⟨rfl, rfl⟩
  obtain ⟨w2, log2, s2, h2, -, -, st⟩ := fR asyncApi asyncAbs wR srcR [] _ sent hwR heof hsR
  refine ⟨⟨⟨iR, s2, .initReadingLength⟩, ⟨oR, w2⟩⟩, by simp only [AsyncProtocol.new, h2], ?_⟩
  have hrem := async_remaining st
  simp only [Source.bytes, List.append_nil] at hrem
  refine c5.2 ?_ iR s2 hm1 hrem
  intro p hp
  have hp : p ∈ (AsyncShapedSys.run P prof (AsyncShapedSys.init
      ⟨⟨iI, s1, .initReadingLength⟩, ⟨oI, w1⟩⟩ sh recorded) ls).called := by
    rw [c1]; exact List.mem_append_left _ hp
  rcases async_called_mem ls hp with h | h
  · cases h
  · exact hz p h

/-- C36 from the very beginning, task, for a shaped responder. -/
theorem C36_end_to_end_async_responder (hP : Lawful P) {magic rngI rngR : Bytes} {config : TrafficConfig}
    {g : R.State}
    {sh : Shaper R} {gI gR : Option Bytes} {dI dR : Option (List Bytes)} {recorded : List Nat}
    (hsh : Shaper.handshake (R := R) ⟨config, g⟩ = (sh, gR, dR, recorded))
    (H : HonestPair P prof magic rngI rngR gI gR dI dR)
    {wI wR : Sink} (hwI : wI.Reliable false) (hwR : wR.Reliable false)
    {srcR tailR : Source} {moreR : Bytes} {kR : ErrorKind} (heR : EndsWith false tailR kR)
    (hsR : Streams false srcR (wireI P magic rngI rngR gI dI ++ moreR) tailR) :
    ∃ s0, AsyncShapedSys.new (R := R) P prof magic .responder rngR config g srcR wR = .ok s0 ∧
    ∀ ls, AsyncCallsUsable ls → ls.length + 4 < 2 ^ 32 →
      (∀ p, AsyncLabel.call p ∈ ls → ∀ c, p.contents = some c → c.length < 2 ^ 24) →
      ∀ s, s = s0.run P prof ls →
        s.task ≠ .panicked ∧ ∀ a b, s.task = .select a b → ∃ written,
          s.called = written ++ s.queue.map (·.payload) ∧ (s.returned.map (·.1)).Sublist written ∧
          (∀ x ∈ s.returned, x.2 = .ok ()) ∧
          ∀ all srcI, s.ws.writer.writer.out = wR.out ++ all → Streams false srcI all [] →
            ∃ pI, AsyncProtocol.new P prof magic .initiator rngI gI dI srcI wI = .ok pI ∧
              AsyncPeerReads P prof pI.reader written := by
  obtain ⟨iI, iR, oI, oR, hm1, hm2, fI, fR, -, ⟨kL, kP, hat⟩⟩ := honest_sessions hP H
  obtain ⟨w1, log1, s1, h1, hrel, ho1, -⟩ := fR asyncApi asyncAbs wR srcR tailR kR moreR hwR heR hsR
  refine ⟨_, by simp only [AsyncShapedSys.new, hsh, AsyncProtocol.new, h1]; rfl, ?_⟩
  rintro ls hl hn hz s rfl
  have hd := (C37_handshake hsh).2.1
  refine ⟨C36_task_no_panic hP (AsyncShapedSys.init_fresh
    ⟨⟨iR, s1, .initReadingLength⟩, ⟨oR, w1⟩⟩ sh recorded) hat ls (by omega) hl, ?_⟩
  intro a b hwait
  obtain ⟨written, c1, c2, c3, sent, c4, c5⟩ := C36_task (prof := prof) hP
    (AsyncShapedSys.init_fresh ⟨⟨iR, s1, .initReadingLength⟩, ⟨oR, w1⟩⟩ sh recorded) hrel ls hwait
  refine ⟨written, c1, c2, c3, ?_⟩
  intro all srcI hall hsI
  have : all = wireR P magic rngI rngR gR dR ++ sent := by
    rw [c4] at hall
    simp only [AsyncShapedSys.init] at hall
    rw [ho1, List.append_assoc] at hall
    exact (List.append_cancel_left hall).symm
  subst this
  have heof : EndsWith false [] .unexpectedEof := .inl ⟨rfl, rfl⟩
  obtain ⟨w2, log2, s2, h2, -, -, st⟩ := fI asyncApi asyncAbs wI srcI [] _ sent hwI heof hsI
  refine ⟨⟨⟨iI, s2, .initReadingLength⟩, ⟨oI, w2⟩⟩, by simp only [AsyncProtocol.new, h2], ?_⟩
  have hrem := async_remaining st
  simp only [Source.bytes, List.append_nil] at hrem
  refine c5.2 ?_ iI s2 hm2 hrem
  intro p hp
  have hp : p ∈ (AsyncShapedSys.run P prof (AsyncShapedSys.init
      ⟨⟨iR, s1, .initReadingLength⟩, ⟨oR, w1⟩⟩ sh recorded) ls).called := by
    rw [c1]; exact List.mem_append_left _ hp
  rcases async_called_mem ls hp with h | h
  · cases h
  · exact hz p h

/-! A concrete run for the theorems above: padding and cover decoys on, the decoy thread interrupting the
application. -/

/-- A session with shaping on, over a transport that takes few bytes at a time. -/
def sampleSys : ShapedSys listRng :=
  .init ⟨⟨sampleIn, ⟨[], false, []⟩⟩, ⟨sampleOut, ⟨[.accept 5, .fail .interrupted, .accept 30], [], [9]⟩⟩⟩
    ⟨⟨.random, .random⟩, [99, 2, 3, 86, 1, 10, 4]⟩ []

/-- The decoy thread sends a decoy while the application waits for the lock; then the application's
write, in the middle of which the decoy thread tries in vain; then another decoy and another write. -/
def sampleSchedule : List SysLabel :=
  [.bg, .bg, .bg, .bg, .call (.genuine [1, 2, 3]), .app] ++ List.replicate 9 .bg ++
    List.replicate 5 .app ++ [.bg, .bg, .bg] ++ List.replicate 9 .app ++ List.replicate 9 .bg ++
    [.call (.genuine [7]), .app, .bg] ++ List.replicate 12 .app

example : sampleSys.Fresh ∧ sampleSys.ws.writer.writer.Reliable true ∧
    OutboundCipher.At toy (leBytes 32 77) (leBytes 32 99) 0 sampleSys.ws.writer.cipher ∧
    CallsUsable sampleSchedule ∧
    (sampleSys.run toy .debug sampleSchedule).owner = none ∧
    (sampleSys.run toy .debug sampleSchedule).poisoned = false ∧
    (sampleSys.run toy .debug sampleSchedule).returned =
      [(.genuine [1, 2, 3], .ok ()), (.genuine [7], .ok ())] := by
  refine ⟨ShapedSys.init_fresh _ _ _, ⟨?_, by simp [sampleSys, ShapedSys.init]⟩,
    ⟨FSStream.at_new _, FSAead.at_new _⟩, ?_, by decide +kernel, by decide +kernel, by decide +kernel⟩
  · simp [sampleSys, ShapedSys.init]
  · intro p hp
    simp [sampleSchedule] at hp
    rcases hp with rfl | rfl <;> exact ⟨_, rfl⟩

/-- What the peer of the sample session reads: two genuine packets between decoys. -/
example : ((SyncReader.readMany toy .debug ⟨sampleIn, ⟨[], false,
      [.data ((sampleSys.run toy .debug sampleSchedule).ws.writer.writer.out.drop 1)]⟩⟩ 7).2).map seen =
    [some (.decoy, [0, 0]), some (.decoy, [0, 0, 0]), some (.genuine, [1, 2, 3]),
      some (.decoy, [0]), some (.decoy, zeros 10), some (.genuine, [7]), none] := by
  decide +kernel

/-! ## C41 -/

/-- The contents of a payload if it is a genuine one. -/
def genuineContents : Option (PacketType × Bytes) → Option Bytes
  | some (.genuine, c) => some c
  | _ => none

theorem shaped_genuine {own : List Payload} {m : List (Bool × Payload)} (h : Shaped own m) :
    (m.map fun x => x.2.view).filterMap genuineContents = (own.map Payload.view).filterMap genuineContents := by
  obtain ⟨h1, h2⟩ := h
  induction m generalizing own with
  | nil => simp [ownOf] at h1; subst h1; rfl
  | cons x m ih =>
    obtain ⟨b, p⟩ := x
    have ih := ih (own := ownOf m) rfl (fun x hx => h2 x (by simp [hx]))
    cases b with
    | true =>
      simp only [ownOf] at h1
      subst h1
      simp only [List.map_cons, List.filterMap_cons, ih]
    | false =>
      simp only [ownOf] at h1
      subst h1
      obtain ⟨n, -, -, hd⟩ := h2 (false, p) (by simp) rfl
      simp only at hd
      subst hd
      simp only [List.map_cons, List.filterMap_cons, ← ih]
      rfl

/-- C41: in whatever a shaped peer sends (`PeerReads` is what C36 shows of it), each packet added by the
shaper is reported with type `Decoy`, each application payload made with `Payload::genuine` with type
`Genuine` and its contents, and a reader that drops decoys is left with exactly the application's genuine
payloads. -/
theorem C41_types {r : SyncReader} {own : List Payload} {k : ErrorKind} (h : PeerReads P prof r own k) :
    ∃ m r' outs, Shaped own m ∧ r.readMany P prof m.length = (r', outs) ∧ outs.length = m.length ∧
      (∀ (j : Nat) (x : Bool × Payload), m[j]? = some x → ∃ p, outs[j]? = some (.ok p) ∧
        (x.1 = false → p.packetType = some .decoy) ∧
        (∀ c, x = (true, .genuine c) → p.packetType = some .genuine ∧ p.contents = some c)) ∧
      outs.filterMap (fun x => genuineContents (seen x)) =
        (own.map Payload.view).filterMap genuineContents := by
  obtain ⟨m, r', outs, hsh, hr, hseen, hok, -⟩ := h
  have hlen : outs.length = m.length := by simpa using congrArg List.length hseen
  refine ⟨m, r', outs, hsh, hr, hlen, ?_, ?_⟩
  · intro j x hx
    have hj : j < outs.length := by
      rw [hlen]; exact (List.getElem?_eq_some_iff.1 hx).1
    obtain ⟨p, hp⟩ := hok _ (List.getElem_mem hj)
    have hpo : outs[j]? = some (.ok p) := by rw [List.getElem?_eq_getElem hj, hp]
    have hv : p.view = x.2.view := by
      have := congrArg (fun l : List (Option (PacketType × Bytes)) => l[j]?) hseen
      simp only [List.getElem?_map, hpo, hx, Option.map_some, seen, Option.some.injEq] at this
      exact this
    refine ⟨p, hpo, ?_, ?_⟩
    · intro hb
      obtain ⟨n, -, -, hd⟩ := hsh.2 x (List.mem_of_getElem? hx) hb
      rw [hd] at hv
      exact (Payload.view_some.1 (hv.trans rfl : p.view = some (.decoy, zeros n))).1
    · rintro c rfl
      exact Payload.view_some.1 (hv.trans rfl : p.view = some (.genuine, c))
  · rw [← shaped_genuine hsh, ← hseen, List.filterMap_map]
    rfl

/-- C41 when all the application's payloads are genuine: the genuine payloads read are exactly those
written. -/
theorem C41_genuine_stream {r : SyncReader} {cs : List Bytes} {k : ErrorKind}
    (h : PeerReads P prof r (cs.map .genuine) k) :
    ∃ n r' outs, r.readMany P prof n = (r', outs) ∧
      outs.filterMap (fun x => genuineContents (seen x)) = cs := by
  obtain ⟨m, r', outs, -, hr, -, -, hg⟩ := C41_types h
  refine ⟨m.length, r', outs, hr, ?_⟩
  rw [hg]
  induction cs with
  | nil => rfl
  | cons c cs ih =>
    simp only [List.map_cons, List.filterMap_cons]
    have : genuineContents (Payload.genuine c).view = some c := rfl
    rw [this]
    simp only [List.cons.injEq, true_and]
    clear ih hg h
    induction cs with
    | nil => rfl
    | cons d cs ih =>
      simp only [List.map_cons, List.filterMap_cons]
      have : genuineContents (Payload.genuine d).view = some d := rfl
      rw [this, ih]

/-- C41 for the asynchronous reader, under every schedule of polls and cancellations: the genuine
payloads read are a prefix of those written, and with enough polls all of them. -/
theorem C41_genuine_stream_async {r : AsyncReader} {own : List Payload} (h : AsyncPeerReads P prof r own) :
    ∃ N, ∀ es, ∃ r' outs, r.run P prof es = (r', outs) ∧
      ((payloads outs).map Payload.view).filterMap genuineContents <+:
        (own.map Payload.view).filterMap genuineContents ∧
      (N ≤ polls es → ((payloads outs).map Payload.view).filterMap genuineContents =
        (own.map Payload.view).filterMap genuineContents) := by
  obtain ⟨m, hsh, h⟩ := h
  refine ⟨r.reader.size + m.length, fun es => ?_⟩
  obtain ⟨r', outs, h1, h2, -, h4⟩ := h es
  refine ⟨r', outs, h1, ?_, fun hN => ?_⟩
  · rw [← shaped_genuine hsh]
    obtain ⟨t, ht⟩ := h2
    rw [← ht, List.filterMap_append]
    exact List.prefix_append _ _
  · rw [← shaped_genuine hsh, h4 hN]

/-- C41 for a whole session with the decoy thread, under every schedule: whatever is written, at every moment at
which nobody is writing, a peer that reads what was sent is told `Decoy` for each packet of the shaper and
`Genuine`, with its contents, for each payload that the application made with `Payload::genuine` and whose write
has returned; dropping the decoys leaves exactly the application's genuine payloads. -/
theorem C41_threads (hP : Lawful P) {s0 : ShapedSys R} (h0 : s0.Fresh)
    (hw : s0.ws.writer.writer.Reliable true) {kL kP : Bytes} {n : Nat}
    (hat : OutboundCipher.At P kL kP n s0.ws.writer.cipher) (ls : List SysLabel)
    (hn : n + ls.length < 2 ^ 32) (hl : CallsUsable ls)
    (hz : ∀ p, SysLabel.call p ∈ ls → ∀ c, p.contents = some c → c.length ≤ 4000013)
    (hfree : (s0.run P prof ls).owner = none)
    {sent : Bytes} (hsent : (s0.run P prof ls).ws.writer.writer.out = s0.ws.writer.writer.out ++ sent)
    {r : SyncReader} {tail : Source} {k : ErrorKind} (hm : Matching s0.ws.writer.cipher r.cipher)
    (he : EndsWith true tail k) (hst : SyncStreams r.reader sent tail) :
    ∃ m r' outs, Shaped ((s0.run P prof ls).returned.map (·.1)) m ∧
      r.readMany P prof m.length = (r', outs) ∧ outs.length = m.length ∧
      (∀ (j : Nat) (x : Bool × Payload), m[j]? = some x → ∃ p, outs[j]? = some (.ok p) ∧
        (x.1 = false → p.packetType = some .decoy) ∧
        (∀ c, x = (true, .genuine c) → p.packetType = some .genuine ∧ p.contents = some c)) ∧
      outs.filterMap (fun x => genuineContents (seen x)) =
        ((s0.run P prof ls).returned.map (·.1.view)).filterMap genuineContents := by
  obtain ⟨-, hcalled, sent', h1, h2, -⟩ := C36_session (prof := prof) hP h0 hw hat ls hn hl hfree
  obtain rfl : sent = sent' := List.append_cancel_left (hsent.symm.trans h1)
  have := C41_types (h2 ?_ r tail k hm he hst)
  · simpa only [List.map_map, Function.comp_def] using this
  · intro p hp c hcon
    have hp : p ∈ (s0.run P prof ls).called := by rw [hcalled]; exact List.mem_append_left _ hp
    rcases called_mem ls hp with h | h
    · rw [h0.called] at h; cases h
    · exact hz p h c hcon

/-- C41 for a whole session with the decoy task and an asynchronous peer, under every schedule of both. -/
theorem C41_task (hP : Lawful P) {s0 : AsyncShapedSys R} (h0 : s0.Fresh)
    (hw : s0.ws.writer.writer.Reliable false) (ls : List AsyncLabel)
    (hz : ∀ p, AsyncLabel.call p ∈ ls → ∀ c, p.contents = some c → c.length < 2 ^ 24)
    {a b : Bool} (hwait : (s0.run P prof ls).task = .select a b)
    {sent : Bytes} (hsent : (s0.run P prof ls).ws.writer.writer.out = s0.ws.writer.writer.out ++ sent)
    {i : InboundCipher} {q : AsyncSession} (hm : Matching s0.ws.writer.cipher i) (hq : q.remaining = sent) :
    ∃ written N, (s0.run P prof ls).called = written ++ (s0.run P prof ls).queue.map (·.payload) ∧
      ∀ es, ∃ r' outs, (AsyncReader.mk i q .initReadingLength).run P prof es = (r', outs) ∧
        ((payloads outs).map Payload.view).filterMap genuineContents <+:
          (written.map Payload.view).filterMap genuineContents ∧
        (N ≤ polls es → ((payloads outs).map Payload.view).filterMap genuineContents =
          (written.map Payload.view).filterMap genuineContents) := by
  obtain ⟨written, w1, -, -, sent', w2, -, w3⟩ := C36_task (prof := prof) hP h0 hw ls hwait
  obtain rfl : sent = sent' := List.append_cancel_left (hsent.symm.trans w2)
  have hs : ∀ p ∈ written, ∀ c, p.contents = some c → c.length < 2 ^ 24 := by
    intro p hp c hcon
    have hp : p ∈ (s0.run P prof ls).called := by rw [w1]; exact List.mem_append_left _ hp
    rcases async_called_mem ls hp with h | h
    · rw [h0.called] at h; cases h
    · exact hz p h c hcon
  obtain ⟨N, h⟩ := C41_genuine_stream_async (w3 hs i q hm hq)
  exact ⟨written, N, w1, h⟩

/-- Non-vacuity of C41: what the peer of the sample session reads without decoys. -/
example : ((SyncReader.readMany toy .debug ⟨sampleIn, ⟨[], false,
      [.data ((sampleSys.run toy .debug sampleSchedule).ws.writer.writer.out.drop 1)]⟩⟩ 6).2).filterMap
        (fun x => genuineContents (seen x)) = [[1, 2, 3], [7]] := by
  decide +kernel

/-! ## C38 -/

/-- C38, handshake: with the default configuration `ShapedProtocol::new` is `Protocol::new` without
garbage and decoys. -/
theorem C38_handshake (magic : Bytes) (role : Role) (rngBytes : Bytes) (g : R.State) (reader : Source)
    (writer : Sink) :
    ShapedSys.new (R := R) P prof magic role rngBytes .default g reader writer =
      (match SyncProtocol.new P prof magic role rngBytes none none reader writer with
        | .ok p => .ok (.init p ⟨.default, g⟩ [])
        | .err e => .err e
        | .panic => .panic) ∧
    AsyncShapedSys.new (R := R) P prof magic role rngBytes .default g reader writer =
      (match AsyncProtocol.new P prof magic role rngBytes none none reader writer with
        | .ok p => .ok (.init p ⟨.default, g⟩ [])
        | .err e => .err e
        | .panic => .panic) := by
  constructor
  · simp only [ShapedSys.new, Shaper.handshake, TrafficConfig.default, List.append_nil]
    cases SyncProtocol.new P prof magic role rngBytes none none reader writer <;> rfl
  · simp only [AsyncShapedSys.new, Shaper.handshake, TrafficConfig.default, List.append_nil]
    cases AsyncProtocol.new P prof magic role rngBytes none none reader writer <;> rfl

/-- With shaping disabled, jobs are the plain writes. -/
theorem serial_disabled {f : Flavour} {tr : List (Job × Outcome ProtocolError Unit)}
    {ws0 ws1 : WriterState R} (h : Serial f P prof ws0 tr ws1)
    (hc : ws0.shaper.config = .default) :
    ws0.writer.writeMany f P prof (writtenBy tr) = (ws1.writer, (writesOf tr).map (·.2)) := by
  induction tr generalizing ws0 with
  | nil =>
    unfold Serial at h
    simp only [List.map_nil, runOne, Prod.mk.injEq, and_true] at h
    subst h; rfl
  | cons x tr ih =>
    obtain ⟨job, r⟩ := x
    obtain ⟨ws, he, hs⟩ := h.cons_inv
    have hp : ws0.shaper.config.padding = .disabled := by rw [hc]; rfl
    have hd : ws0.shaper.config.decoy = .disabled := by rw [hc]; rfl
    cases job with
    | cover =>
      simp only [WriterState.exec, WriterState.cover, Shaper.decoy, hd, Prod.mk.injEq] at he
      obtain ⟨rfl, rfl⟩ := he
      exact (ih hs hc : _)
    | write p =>
      simp only [WriterState.exec, WriterState.write, Shaper.pad] at he
      cases hcon : p.contents with
      | none =>
        simp only [hcon, Prod.mk.injEq] at he
        obtain ⟨rfl, rfl⟩ := he
        have hv : p.view = none := by
          unfold Payload.view; rw [hcon]; cases p.packetType <;> rfl
        have := ih hs hc
        simp only [writtenBy, writesOf, List.map_cons, Writer.writeMany, Writer.write_none f _ hv]
        simp only [writtenBy] at this
        rw [this]
      | some c =>
        simp only [hcon, hp] at he
        cases hw : ws0.writer.write f P prof p with
        | mk w r' =>
        simp only [hw, Prod.mk.injEq] at he
        obtain ⟨rfl, rfl⟩ := he
        have := ih hs hc
        simp only [writtenBy, writesOf, List.map_cons, Writer.writeMany, hw]
        simp only [writtenBy] at this
        rw [this]

/-- C38, threads.  With the default configuration, for every schedule and every behaviour of the
transport: whenever the lock is free, the plain writer given the same payloads would have put the same
bytes on the wire, be in the same state and have returned the same results (`dead` are calls made after
a panic of the writer, which the poisoned mutex turns away). -/
theorem C38_threads {s0 : ShapedSys R} (h0 : s0.Fresh) (hc : s0.ws.shaper.config = .default)
    (ls : List SysLabel) (hfree : (s0.run P prof ls).owner = none) :
    ∃ done dead, (s0.run P prof ls).returned = done ++ dead.map (fun p => (p, .panic)) ∧
      (dead ≠ [] → ∃ p, (p, Outcome.panic) ∈ done) ∧
      s0.ws.writer.writeMany .sync P prof (done.map (·.1)) =
        ((s0.run P prof ls).ws.writer, done.map (·.2)) := by
  have hI := (h0.inv (P := P) (prof := prof)).run ls
  generalize hs : s0.run P prof ls = s at hI hfree ⊢
  obtain ⟨-, hI⟩ := hI
  rcases hI with ⟨tr, qs, h⟩ | ⟨tr, p, pc, h, -⟩ | ⟨tr, pc, h, -⟩
  · obtain ⟨-, -, -, hser, hret, hpo, hq, -⟩ := h
    refine ⟨writesOf tr, qs, hret, ?_, serial_disabled hser hc⟩
    intro hne
    have hp : s.poisoned = true := by
      cases hb : s.poisoned with
      | true => rfl
      | false => exact absurd (hq hb) hne
    obtain ⟨⟨job, r⟩, hx, hr⟩ := hpo.1 hp
    simp only at hr
    subst hr
    cases job with
    | write p =>
      refine ⟨p, ?_⟩
      clear hser hret hpo
      induction tr with
      | nil => cases hx
      | cons y tr ih =>
        obtain ⟨j, r⟩ := y
        rcases List.mem_cons.1 hx with h | h
        · cases h; simp [writesOf]
        · cases j with
          | write q => exact List.mem_cons_of_mem _ (ih h)
          | cover => exact ih h
    | cover =>
      -- a disabled cover does nothing
      exfalso
      clear hret hpo
      have hc0 := hc
      revert hser hc0
      generalize s0.ws = ws0
      intro hser hc0
      induction tr generalizing ws0 with
      | nil => cases hx
      | cons y tr ih =>
        obtain ⟨j, r⟩ := y
        obtain ⟨ws, he, hs'⟩ := hser.cons_inv
        have hcfg : ws.shaper.config = .default := by
          cases j with
          | cover =>
            simp only [WriterState.exec, WriterState.cover] at he
            cases hdd : ws0.shaper.decoy with
            | mk sh x =>
            obtain ⟨d, rec⟩ := x
            have := (decoy_some hdd).1
            cases d with
            | none =>
              simp only [hdd, Prod.mk.injEq] at he
              rw [← he.1]; exact this.trans hc0
            | some d =>
              simp only [hdd, Prod.mk.injEq] at he
              rw [← he.1]; exact this.trans hc0
          | write p =>
            simp only [WriterState.exec, WriterState.write] at he
            cases hdd : ws0.shaper.pad p with
            | none =>
              simp only [hdd, Prod.mk.injEq] at he
              rw [← he.1]; exact hc0
            | some x =>
              obtain ⟨sh, d, rec⟩ := x
              have := (pad_some hdd).2.1
              have hnone := ((pad_some hdd).2.2.1 (by rw [hc0]; rfl)).1
              subst hnone
              simp only [hdd, Prod.mk.injEq] at he
              rw [← he.1]; exact this.trans hc0
        rcases List.mem_cons.1 hx with h | h
        · cases h
          simp [WriterState.exec, WriterState.cover, Shaper.decoy, hc0, TrafficConfig.default] at he
        · exact ih h ws hs' hcfg
  · rw [hfree] at h; cases h
  · rw [hfree] at h; cases h

/-- C38, task: likewise whenever the task waits; the plain writer is given the payloads of a beginning of
the calls. -/
theorem C38_task {s0 : AsyncShapedSys R} (h0 : s0.Fresh) (hc : s0.ws.shaper.config = .default)
    (ls : List AsyncLabel) {a b : Bool} (hwait : (s0.run P prof ls).task = .select a b) :
    ∃ done : List (Payload × Outcome ProtocolError Unit),
      (s0.run P prof ls).called = done.map (·.1) ++ (s0.run P prof ls).queue.map (·.payload) ∧
      (s0.run P prof ls).returned.Sublist done ∧
      s0.ws.writer.writeMany .async P prof (done.map (·.1)) =
        ((s0.run P prof ls).ws.writer, done.map (·.2)) := by
  have hI := (h0.inv (P := P) (prof := prof)).run ls
  generalize hs : s0.run P prof ls = s at hI hwait ⊢
  obtain ⟨tr, hnp, hans, ⟨ret, gone, e1, e2, e3⟩, hI⟩ := hI
  rcases hI with ⟨off, rest, h1, h2, h3, h4⟩ | ⟨_, _, _, h1, -⟩ | ⟨_, _, h1, -⟩ | ⟨_, _, h1, -⟩
  · have hg : gone = [] := by
      by_cases hg : gone = []
      · exact hg
      · have := e2 hg; rw [hwait] at this; cases this
    subst hg
    rw [List.map_nil, List.append_nil] at e1
    refine ⟨writesOf tr, ?_, ?_, serial_disabled h2 hc⟩
    · rw [h3, h4]
      have : ∀ (n : Nat) (l : List Payload), (cmdsOf n l).map (·.payload) = l := by
        intro n l
        induction l generalizing n with
        | nil => rfl
        | cons p l ih =>
          show p :: (cmdsOf (n + 1) l).map (·.payload) = _
          rw [ih]
      rw [this]
    · rw [e1]
      rcases e3 with ⟨-, e⟩ | ⟨p, c, -, -, -, e⟩
      · exact e
      · exact e.trans (List.take_sublist _ _)
  · rw [hwait] at h1; cases h1
  · rw [hwait] at h1; cases h1
  · rw [hwait] at h1; cases h1

/-- Non-vacuity of C38: writes over a failing transport, and ticks of the decoy thread. -/
example :
    let s0 : ShapedSys listRng := .init
      ⟨⟨sampleIn, ⟨[], false, []⟩⟩, ⟨sampleOut, ⟨[.accept 7, .fail .timedOut], [], [9]⟩⟩⟩
      ⟨.default, [99, 99]⟩ []
    let s := s0.run toy .debug ([.call (.genuine [1]), .bg, .bg, .bg, .bg, .bg] ++
      List.replicate 12 .app ++ List.replicate 5 .bg ++ [.call (.decoy [2])] ++ List.replicate 12 .app)
    s0.Fresh ∧ s0.ws.shaper.config = .default ∧ s.owner = none ∧
      s.returned = [(.genuine [1], .err (.io .timedOut .abort)), (.decoy [2], .ok ())] := by
  exact ⟨ShapedSys.init_fresh _ _ _, rfl, by decide +kernel, by decide +kernel⟩

end Bip324
