import Verif.Model.AnyTransport
import Verif.Lemmas.Session

/-!
# Executions over any transport are executions over scripts

For every function of Model/AnyTransport.lean: if it ends, then the function of the script model does the same on the
script of the answers that the transport gave, whatever comes after that script.
-/

namespace Bip324

variable {P : Prims} {prof : Profile} {σ : Type} {fuel : Nat}

/-! ## Specification -/

/-- The contracts of `Read::read` and `Write::write`: no more bytes than asked for, no more bytes than given.  (`write_all`
would panic otherwise; the model of it does not show that.) -/
structure Conn.Keeps (N : Conn σ) : Prop where
  read : ∀ s n s' bs, N.read s n = some (s', .ok bs) → bs.length ≤ n
  write : ∀ s b s' n, N.write s b = some (s', .ok n) → n ≤ b.length

/-! ## Reading -/

/-- What a reader (with `run` inside it) does in one call is what it does on a script. -/
def ReadsAs {X T : Type} (rd : X → Nat → Option (X × ReadRes)) (R : Reader T) (run : X → ConnRun σ)
    (join : X → Source → T) : Prop :=
  ∀ s n s' x, rd s n = some (s', x) →
    ∃ ρ : Source, (∀ tail, R.read (join s (ρ ++ tail)) n = (join s' tail, x)) ∧
      (run s').answers = (run s).answers ++ ρ ∧ (run s').sent = (run s).sent

theorem readRun_script {N : Conn σ} (hN : N.Keeps) :
    ReadsAs N.readRun Source.reader id (fun _ src => src) := by
  intro r n r' x h
  unfold Conn.readRun at h
  cases hr : N.read r.net n with
  | none => rw [hr] at h; simp at h
  | some y =>
    obtain ⟨s, y⟩ := y
    rw [hr] at h
    cases y with
    | ok bs =>
      simp only [Option.some.injEq, Prod.mk.injEq] at h
      obtain ⟨rfl, rfl⟩ := h
      refine ⟨[.data bs], fun tail => ?_, by simp, rfl⟩
      show Source.read (.data bs :: tail) n = _
      unfold Source.read
      rw [if_pos (hN.read _ _ _ _ hr)]
    | err k =>
      simp only [Option.some.injEq, Prod.mk.injEq] at h
      obtain ⟨rfl, rfl⟩ := h
      exact ⟨[.fail k], fun tail => rfl, by simp, rfl⟩

theorem readExact_unfold {T : Type} (R : Reader T) (retry : Bool) (s : T) (need : Nat) (acc : Bytes) :
    R.readExact retry s need acc = if need = 0 then (s, .ok acc) else
      match R.read s need with
      | (s', .ok []) => (s', .error .unexpectedEof)
      | (s', .ok (b :: bs)) => R.readExact retry s' (need - (b :: bs).length) (acc ++ (b :: bs))
      | (s', .err k) => if retry && k == .interrupted then R.readExact retry s' need acc else (s', .error k) := by
  rw [Reader.readExact]
  split
  · rfl
  · split <;> simp_all

theorem readExactN_script {X T : Type} {rd : X → Nat → Option (X × ReadRes)} {R : Reader T} {run : X → ConnRun σ}
    {join : X → Source → T} (hr : ReadsAs rd R run join) (retry : Bool) (s : X) (need : Nat) (acc : Bytes) (s' : X)
    (x : Except ErrorKind Bytes) (h : readExactN fuel rd retry s need acc = some (s', x)) :
    ∃ ρ : Source, (∀ tail, R.readExact retry (join s (ρ ++ tail)) need acc = (join s' tail, x)) ∧
      (run s').answers = (run s).answers ++ ρ ∧ (run s').sent = (run s).sent := by
  have key : ∀ fuel s need acc y, readExactN fuel rd retry s need acc = some y → ∃ ρ : Source,
      (∀ tail, R.readExact retry (join s (ρ ++ tail)) need acc = (join y.1 tail, y.2)) ∧
        (run y.1).answers = (run s).answers ++ ρ ∧ (run y.1).sent = (run s).sent := by
    intro fuel
    induction fuel with
    | zero => intro s need acc y h; simp [readExactN] at h
    | succ fuel ih =>
    intro s need acc y h
    unfold readExactN at h
    by_cases h0 : need = 0
    · rw [if_pos h0] at h
      simp only [Option.some.injEq] at h
      subst h
      refine ⟨[], fun tail => ?_, by simp, rfl⟩
      rw [readExact_unfold, if_pos h0]
      rfl
    rw [if_neg h0] at h
    cases hrd : rd s need with
    | none => rw [hrd] at h; simp at h
    | some z =>
      obtain ⟨s1, z⟩ := z
      obtain ⟨ρ, h1, h2, h3⟩ := hr _ _ _ _ hrd
      rw [hrd] at h
      have hu := fun tail => readExact_unfold R retry (join s (ρ ++ tail)) need acc
      simp only [if_neg h0, h1] at hu
      cases z with
      | err k =>
        simp only at h hu
        by_cases hk : (retry && k == .interrupted) = true
        · rw [if_pos hk] at h
          simp only [if_pos hk] at hu
          obtain ⟨ρ', h4, h5, h6⟩ := ih _ _ _ _ h
          refine ⟨ρ ++ ρ', fun tail => ?_, by rw [h5, h2]; simp, h6.trans h3⟩
          rw [List.append_assoc, hu, h4]
        · rw [if_neg hk] at h
          simp only [if_neg hk] at hu
          simp only [Option.some.injEq] at h
          subst h
          exact ⟨ρ, hu, h2, h3⟩
      | ok bs =>
        cases bs with
        | nil =>
          simp only [Option.some.injEq] at h hu
          subst h
          exact ⟨ρ, hu, h2, h3⟩
        | cons b bs =>
          simp only at h hu
          obtain ⟨ρ', h4, h5, h6⟩ := ih _ _ _ _ h
          refine ⟨ρ ++ ρ', fun tail => ?_, by rw [h5, h2]; simp, h6.trans h3⟩
          rw [List.append_assoc, hu, h4]
  exact key fuel s need acc (s', x) h

/-! ## The session readers -/

/-- The two formulations of one API belong together. -/
structure ApiMatch (A : Api) (B : ApiN) where
  join : B.Sess → Source → A.Session
  retry : A.retry = B.retry
  made : ∀ l src, A.mkSession l src = join (B.mkSess l) src
  reads : ∀ {σ : Type} {rd : ConnRun σ → Nat → Option (ConnRun σ × ReadRes)},
    ReadsAs rd Source.reader id (fun _ src => src) →
    ReadsAs (B.read rd) A.reader Prod.snd (fun x src => join x.1 src)

def syncMatch : ApiMatch syncApi syncN where
  join s src := ⟨s.1, s.2, src⟩
  retry := rfl
  made _ _ := rfl
  reads := by
    rintro σ rd hr ⟨⟨l, d⟩, r⟩ n ⟨⟨l', d'⟩, r'⟩ x h
    simp only [syncN] at h
    have hread : ∀ src, syncApi.reader.read ⟨l, d, src⟩ n = SyncSession.read ⟨l, d, src⟩ n := fun _ => rfl
    by_cases hd : d = true
    · subst hd
      simp only [if_true] at h
      cases hx : rd r n with
      | none => rw [hx] at h; simp at h
      | some y =>
        obtain ⟨r1, y⟩ := y
        rw [hx] at h
        simp only [Option.some.injEq, Prod.mk.injEq] at h
        obtain ⟨⟨⟨rfl, rfl⟩, rfl⟩, rfl⟩ := h
        obtain ⟨ρ, h1, h2, h3⟩ := hr _ _ _ _ hx
        refine ⟨ρ, fun tail => ?_, h2, h3⟩
        have h1 : Source.read (ρ ++ tail) n = (tail, y) := h1 tail
        rw [hread]
        unfold SyncSession.read
        simp only [if_true, h1]
        rfl
    · simp only [if_neg hd] at h
      cases hl : l.take n with
      | cons b bs =>
        rw [hl] at h
        simp only [Option.some.injEq, Prod.mk.injEq] at h
        obtain ⟨⟨⟨rfl, rfl⟩, rfl⟩, rfl⟩ := h
        refine ⟨[], fun tail => ?_, by simp, rfl⟩
        rw [hread]
        unfold SyncSession.read
        simp only [if_neg hd, hl]
        rfl
      | nil =>
        rw [hl] at h
        simp only at h
        by_cases h0 : n = 0
        · rw [if_pos h0] at h
          simp only [Option.some.injEq, Prod.mk.injEq] at h
          obtain ⟨⟨⟨rfl, rfl⟩, rfl⟩, rfl⟩ := h
          refine ⟨[], fun tail => ?_, by simp, rfl⟩
          rw [hread]
          unfold SyncSession.read
          simp only [if_neg hd, hl, if_pos h0]
          rfl
        · rw [if_neg h0] at h
          cases hx : rd r n with
          | none => rw [hx] at h; simp at h
          | some y =>
            obtain ⟨r1, y⟩ := y
            rw [hx] at h
            simp only [Option.some.injEq, Prod.mk.injEq] at h
            obtain ⟨⟨⟨rfl, rfl⟩, rfl⟩, rfl⟩ := h
            obtain ⟨ρ, h1, h2, h3⟩ := hr _ _ _ _ hx
            refine ⟨ρ, fun tail => ?_, h2, h3⟩
            have h1 : Source.read (ρ ++ tail) n = (tail, y) := h1 tail
            rw [hread]
            unfold SyncSession.read
            simp only [if_neg hd, hl, if_neg h0, h1]
            rfl

def asyncMatch : ApiMatch asyncApi asyncN where
  join s src := ⟨s.1, s.2, src⟩
  retry := rfl
  made _ _ := rfl
  reads := by
    rintro σ rd hr ⟨⟨l, p⟩, r⟩ n ⟨⟨l', p'⟩, r'⟩ x h
    simp only [asyncN] at h
    have hread : ∀ src, asyncApi.reader.read ⟨l, p, src⟩ n = AsyncSession.read ⟨l, p, src⟩ n := fun _ => rfl
    by_cases hd : p < l.length
    · simp only [if_pos hd, Option.some.injEq, Prod.mk.injEq] at h
      obtain ⟨⟨⟨rfl, rfl⟩, rfl⟩, rfl⟩ := h
      refine ⟨[], fun tail => ?_, by simp, rfl⟩
      rw [hread]
      unfold AsyncSession.read
      simp only [if_pos hd]
      rfl
    · simp only [if_neg hd] at h
      cases hx : rd r n with
      | none => rw [hx] at h; simp at h
      | some y =>
        obtain ⟨r1, y⟩ := y
        rw [hx] at h
        simp only [Option.some.injEq, Prod.mk.injEq] at h
        obtain ⟨⟨⟨rfl, rfl⟩, rfl⟩, rfl⟩ := h
        obtain ⟨ρ, h1, h2, h3⟩ := hr _ _ _ _ hx
        refine ⟨ρ, fun tail => ?_, h2, h3⟩
        have h1 : Source.read (ρ ++ tail) n = (tail, y) := h1 tail
        rw [hread]
        unfold AsyncSession.read
        simp only [if_neg hd, h1]
        rfl

/-! ## Writing -/

theorem writeAllN_script {N : Conn σ} (retry : Bool) (r : ConnRun σ) (buf : Bytes) (r' : ConnRun σ)
    (x : Except ErrorKind Unit) (h : N.writeAll fuel retry r buf = some (r', x)) :
    ∃ (ω : List WEv) (taken : Bytes), (∀ tail, writeAllGo retry (ω ++ tail) buf = (tail, taken, x)) ∧
      r'.sent = r.sent ++ taken ∧ r'.answers = r.answers := by
  have key : ∀ fuel r buf y, N.writeAll fuel retry r buf = some y → ∃ (ω : List WEv) (taken : Bytes), (∀ tail, writeAllGo retry (ω ++ tail) buf = (tail, taken, y.2)) ∧
      y.1.sent = r.sent ++ taken ∧ y.1.answers = r.answers := by
    intro fuel
    induction fuel with
    | zero => intro r buf y h; simp [Conn.writeAll] at h
    | succ fuel ih =>
    intro r buf y h
    unfold Conn.writeAll at h
    cases buf with
    | nil =>
      simp only [Option.some.injEq] at h
      subst h
      exact ⟨[], [], fun tail => by cases tail <;> rfl, by simp, rfl⟩
    | cons b bs =>
      simp only at h
      unfold Conn.writeRun at h
      cases hw : N.write r.net (b :: bs) with
      | none => rw [hw] at h; simp at h
      | some z =>
        obtain ⟨s, z⟩ := z
        rw [hw] at h
        cases z with
        | error k =>
          simp only at h
          by_cases hk : (retry && k == .interrupted) = true
          · rw [if_pos hk] at h
            obtain ⟨ω, taken, h1, h2, h3⟩ := ih _ _ _ h
            refine ⟨.fail k :: ω, taken, fun tail => ?_, h2, h3⟩
            show writeAllGo retry (.fail k :: (ω ++ tail)) (b :: bs) = _
            unfold writeAllGo
            rw [if_pos hk, h1]
          · rw [if_neg hk] at h
            simp only [Option.some.injEq] at h
            subst h
            refine ⟨[.fail k], [], fun tail => ?_, by simp, rfl⟩
            show writeAllGo retry (.fail k :: tail) (b :: bs) = _
            unfold writeAllGo
            rw [if_neg hk]
        | ok n =>
          cases n with
          | zero =>
            simp only [Option.some.injEq] at h
            subst h
            exact ⟨[.accept 0], [], fun tail => rfl, by simp, rfl⟩
          | succ n =>
            simp only at h
            obtain ⟨ω, taken, h1, h2, h3⟩ := ih _ _ _ h
            refine ⟨.accept (n + 1) :: ω, (b :: bs).take (n + 1) ++ taken, fun tail => ?_, ?_, h3⟩
            · show writeAllGo retry (.accept (n + 1) :: (ω ++ tail)) (b :: bs) = _
              unfold writeAllGo
              rw [h1]
            · rw [h2, ← List.append_assoc]
  exact key fuel r buf (r', x) h

/-- What `write_all` and `flush` do is what they do on scripts. -/
theorem sendN_script {N : Conn σ} {retry : Bool} {r : ConnRun σ} {buf : Bytes} {r' : ConnRun σ}
    {x : Except ErrorKind Unit} (h : N.send fuel retry r buf = some (r', x)) :
    ∃ (ω : List WEv) (φ : List (Option ErrorKind)) (taken : Bytes),
      (∀ tω tφ out, Sink.send ⟨ω ++ tω, φ ++ tφ, out⟩ retry buf = (⟨tω, tφ, out ++ taken⟩, x)) ∧
      r'.sent = r.sent ++ taken ∧ r'.answers = r.answers := by
  unfold Conn.send at h
  cases hw : N.writeAll fuel retry r buf with
  | none => rw [hw] at h; simp at h
  | some y =>
    obtain ⟨r1, y⟩ := y
    rw [hw] at h
    obtain ⟨ω, taken, h1, h2, h3⟩ := writeAllN_script retry r buf r1 y hw
    cases y with
    | error k =>
      simp only [Option.some.injEq, Prod.mk.injEq] at h
      obtain ⟨rfl, rfl⟩ := h
      refine ⟨ω, [], taken, fun tω tφ out => ?_, h2, h3⟩
      unfold Sink.send Sink.writeAll
      simp only [h1]
      rfl
    | ok u =>
      simp only at h
      unfold Conn.flushRun at h
      cases hf : N.flush r1.net with
      | none => rw [hf] at h; simp at h
      | some z =>
        obtain ⟨s, z⟩ := z
        rw [hf] at h
        simp only [Option.some.injEq, Prod.mk.injEq] at h
        obtain ⟨rfl, rfl⟩ := h
        cases z with
        | ok u =>
          refine ⟨ω, [none], taken, fun tω tφ out => ?_, h2, h3⟩
          unfold Sink.send Sink.writeAll
          simp only [h1]
          rfl
        | error k =>
          refine ⟨ω, [some k], taken, fun tω tφ out => ?_, h2, h3⟩
          unfold Sink.send Sink.writeAll
          simp only [h1]
          rfl

/-! ## The loops of the handshake -/

theorem garbageLoop_unfold (h : HsSentVersion) (buf : Bytes) (src : Source) :
    garbageLoop h buf src = match h.receiveGarbage buf with
      | .ok (.foundGarbage h' consumed) => ([buf.length], .ok (h', consumed, buf, src))
      | .ok (.needMoreData h') =>
        match src.read 256 with
        | (_, .ok []) => ([buf.length], .err .eof)
        | (src', .ok (b :: bs)) =>
          match garbageLoop h' (buf ++ b :: bs) src' with
          | (log, r) => (buf.length :: log, r)
        | (_, .err k) => ([buf.length], .err (.fromIo k))
      | .err e => ([buf.length], .err (.internal e))
      | .panic => ([buf.length], .panic) := by
  rw [garbageLoop]
  split
  · simp only [*]
  · simp only [*]
    split <;> simp_all
  · simp only [*]
  · simp only [*]

/-- The result on a script: the transport is left with the rest of the script. -/
def withSource (tail : Source) : Outcome ProtocolError (HsReceivedGarbage × Nat × Bytes) →
    Outcome ProtocolError (HsReceivedGarbage × Nat × Bytes × Source)
  | .ok (h, n, b) => .ok (h, n, b, tail)
  | .err e => .err e
  | .panic => .panic

theorem garbageLoopN_script {N : Conn σ} (hN : N.Keeps) (h : HsSentVersion) (buf : Bytes) (r : ConnRun σ)
    (r' : ConnRun σ) (x : Outcome ProtocolError (HsReceivedGarbage × Nat × Bytes))
    (he : garbageLoopN fuel N h buf r = some (r', x)) :
    ∃ (ρ : Source) (log : List Nat), (∀ tail, garbageLoop h buf (ρ ++ tail) = (log, withSource tail x)) ∧
      r'.answers = r.answers ++ ρ ∧ r'.sent = r.sent := by
  have key : ∀ fuel h buf r y, garbageLoopN fuel N h buf r = some y → ∃ (ρ : Source) (log : List Nat),
      (∀ tail, garbageLoop h buf (ρ ++ tail) = (log, withSource tail y.2)) ∧
      y.1.answers = r.answers ++ ρ ∧ y.1.sent = r.sent := by
    intro fuel
    induction fuel with
    | zero => intro h buf r y he; simp [garbageLoopN] at he
    | succ fuel ih =>
    intro h buf r y he
    unfold garbageLoopN at he
    have hu := garbageLoop_unfold h buf
    cases hg : h.receiveGarbage buf with
    | panic =>
      simp only [hg, Option.some.injEq] at he hu
      subst he
      exact ⟨[], [buf.length], fun tail => hu _, by simp, rfl⟩
    | err e =>
      simp only [hg, Option.some.injEq] at he hu
      subst he
      exact ⟨[], [buf.length], fun tail => hu _, by simp, rfl⟩
    | ok g =>
      cases g with
      | foundGarbage h' c =>
        simp only [hg, Option.some.injEq] at he hu
        subst he
        exact ⟨[], [buf.length], fun tail => hu _, by simp, rfl⟩
      | needMoreData h' =>
        simp only [hg] at he hu
        cases hr : N.readRun r 256 with
        | none => rw [hr] at he; simp at he
        | some z =>
          obtain ⟨r1, z⟩ := z
          obtain ⟨ρ, h1, h2, h3⟩ := readRun_script hN _ _ _ _ hr
          have h1 : ∀ tail, Source.read (ρ ++ tail) 256 = (tail, z) := h1
          rw [hr] at he
          cases z with
          | err k =>
            simp only [Option.some.injEq] at he
            subst he
            refine ⟨ρ, [buf.length], fun tail => ?_, h2, h3⟩
            rw [hu, h1]
            rfl
          | ok bs =>
            cases bs with
            | nil =>
              simp only [Option.some.injEq] at he
              subst he
              refine ⟨ρ, [buf.length], fun tail => ?_, h2, h3⟩
              rw [hu, h1]
              rfl
            | cons b bs =>
              simp only at he
              obtain ⟨ρ', log, h4, h5, h6⟩ := ih _ _ _ _ he
              refine ⟨ρ ++ ρ', buf.length :: log, fun tail => ?_, ?_, h6.trans h3⟩
              · rw [List.append_assoc, hu, h1]
                simp only [h4]
              · have h2 : r1.answers = r.answers ++ ρ := h2
                rw [h5, h2]; simp
  exact key fuel h buf r (r', x) he

theorem versionLoop_unfold (A : Api) (h : HsReceivedGarbage) (s : A.Session) :
    versionLoop A P prof h s = match A.reader.readExact A.retry s NUM_LENGTH_BYTES with
      | (_, .error k) => ([], .err (.fromIo k))
      | (s1, .ok lengthBytes) =>
        match h.decryptPacketLen P prof lengthBytes with
        | (_, .panic) => ([], .panic)
        | (_, .err e) => ([], .err (.internal e))
        | (h1, .ok packetLen) =>
          if packetLen > MAX_PACKET_SIZE_FOR_ALLOCATION then ([], .err (.internal .packetTooBig))
          else
            match A.reader.readExact A.retry s1 packetLen with
            | (_, .error k) => ([packetLen], .err (.fromIo k))
            | (s2, .ok packetBytes) =>
              match h1.receiveVersion P prof packetBytes with
              | (_, .panic) => ([packetLen], .panic)
              | (_, .err e) => ([packetLen], .err (.internal e))
              | (_, .ok (.complete cipher)) =>
                ([packetLen], .ok (cipher.intoSplit.1, cipher.intoSplit.2, s2))
              | (_, .ok (.decoy h2)) =>
                match versionLoop A P prof h2 s2 with
                | (log, r) => (packetLen :: log, r) := by
  rw [versionLoop]
  split
  · simp_all
  · simp only [*]
    split
    · simp only [*]
    · simp only [*]
    · simp only [*]
      split
      · rfl
      · split
        · simp_all
        · simp only [*]
          rfl

/-- The result on a script: the session reader has the rest of the script inside it. -/
def withSession {α S T : Type} (join : S → T) : Outcome ProtocolError (α × OutboundCipher × S) →
    Outcome ProtocolError (α × OutboundCipher × T)
  | .ok (i, o, s) => .ok (i, o, join s)
  | .err e => .err e
  | .panic => .panic

theorem versionLoopN_script {A : Api} {B : ApiN} (M : ApiMatch A B) {N : Conn σ} (hN : N.Keeps) (h : HsReceivedGarbage)
    (s : B.Sess × ConnRun σ) (r' : ConnRun σ) (x : Outcome ProtocolError (InboundCipher × OutboundCipher × B.Sess))
    (he : versionLoopN fuel B N P prof h s = some (r', x)) :
    ∃ (ρ : Source) (log : List Nat),
      (∀ tail, versionLoop A P prof h (M.join s.1 (ρ ++ tail)) = (log, withSession (M.join · tail) x)) ∧
      r'.answers = s.2.answers ++ ρ ∧ r'.sent = s.2.sent := by
  have hR := M.reads (readRun_script hN)
  have key : ∀ fuel h s y, versionLoopN fuel B N P prof h s = some y → ∃ (ρ : Source) (log : List Nat),
      (∀ tail, versionLoop A P prof h (M.join s.1 (ρ ++ tail)) = (log, withSession (M.join · tail) y.2)) ∧
      y.1.answers = s.2.answers ++ ρ ∧ y.1.sent = s.2.sent := by
    intro fuel
    induction fuel with
    | zero => intro h s y he; simp [versionLoopN] at he
    | succ fuel ih =>
    intro h s y he
    unfold versionLoopN at he
    have hu := fun s => versionLoop_unfold (P := P) (prof := prof) A h s
    cases h1 : readExactN fuel (B.read N.readRun) B.retry s NUM_LENGTH_BYTES [] with
    | none => rw [h1] at he; simp at he
    | some z =>
    obtain ⟨s1, z⟩ := z
    obtain ⟨ρ1, e1, g1, t1⟩ := readExactN_script hR B.retry _ _ _ _ _ h1
    rw [← M.retry] at e1
    rw [h1] at he
    cases z with
    | error k =>
      simp only [Option.some.injEq] at he
      subst he
      refine ⟨ρ1, [], fun tail => ?_, g1, t1⟩
      rw [hu, e1]
      rfl
    | ok lb =>
    simp only at he
    cases hd : h.decryptPacketLen P prof lb with
    | mk hh z =>
    rw [hd] at he
    cases z with
    | panic =>
      simp only [Option.some.injEq] at he
      subst he
      refine ⟨ρ1, [], fun tail => ?_, g1, t1⟩
      rw [hu, e1]
      simp only [hd]
      rfl
    | err e =>
      simp only [Option.some.injEq] at he
      subst he
      refine ⟨ρ1, [], fun tail => ?_, g1, t1⟩
      rw [hu, e1]
      simp only [hd]
      rfl
    | ok len =>
    simp only at he
    by_cases hbig : len > MAX_PACKET_SIZE_FOR_ALLOCATION
    · rw [if_pos hbig] at he
      simp only [Option.some.injEq] at he
      subst he
      refine ⟨ρ1, [], fun tail => ?_, g1, t1⟩
      rw [hu, e1]
      simp only [hd, if_pos hbig]
      rfl
    rw [if_neg hbig] at he
    cases h2 : readExactN fuel (B.read N.readRun) B.retry s1 len [] with
    | none => rw [h2] at he; simp at he
    | some z =>
    obtain ⟨s2, z⟩ := z
    obtain ⟨ρ2, e2, g2, t2⟩ := readExactN_script hR B.retry _ _ _ _ _ h2
    rw [← M.retry] at e2
    rw [h2] at he
    have g12 : s2.2.answers = s.2.answers ++ (ρ1 ++ ρ2) := by rw [g2, g1]; simp
    have t12 := t2.trans t1
    cases z with
    | error k =>
      simp only [Option.some.injEq] at he
      subst he
      refine ⟨ρ1 ++ ρ2, [len], fun tail => ?_, g12, t12⟩
      rw [hu, List.append_assoc, e1]
      simp only [hd, if_neg hbig, e2]
      rfl
    | ok pkt =>
    simp only at he
    cases hv : hh.receiveVersion P prof pkt with
    | mk b z =>
    rw [hv] at he
    cases z with
    | panic =>
      simp only [Option.some.injEq] at he
      subst he
      refine ⟨ρ1 ++ ρ2, [len], fun tail => ?_, g12, t12⟩
      rw [hu, List.append_assoc, e1]
      simp only [hd, if_neg hbig, e2, hv]
      rfl
    | err e =>
      simp only [Option.some.injEq] at he
      subst he
      refine ⟨ρ1 ++ ρ2, [len], fun tail => ?_, g12, t12⟩
      rw [hu, List.append_assoc, e1]
      simp only [hd, if_neg hbig, e2, hv]
      rfl
    | ok v =>
    cases v with
    | complete c =>
      simp only [Option.some.injEq] at he
      subst he
      refine ⟨ρ1 ++ ρ2, [len], fun tail => ?_, g12, t12⟩
      rw [hu, List.append_assoc, e1]
      simp only [hd, if_neg hbig, e2, hv]
      rfl
    | decoy hh2 =>
      simp only at he
      obtain ⟨ρ3, log, e3, g3, t3⟩ := ih _ _ _ he
      refine ⟨ρ1 ++ (ρ2 ++ ρ3), len :: log, fun tail => ?_, ?_, t3.trans t12⟩
      · rw [hu, List.append_assoc, e1]
        simp only [hd, if_neg hbig, List.append_assoc, e2, hv, e3]
      · rw [g3, g12]; simp
  exact key fuel h s (r', x) he

/-! ## The handshake -/

theorem handshakeWithInitializedN_script {A : Api} {B : ApiN} (M : ApiMatch A B) {N : Conn σ} (hN : N.Keeps)
    (h : HsInitialized) (garbage : Option Bytes) (decoys : Option (List Bytes)) (r r' : ConnRun σ)
    (x : Outcome ProtocolError (InboundCipher × OutboundCipher × B.Sess))
    (he : handshakeWithInitializedN fuel B N P prof h garbage decoys r = some (r', x)) :
    ∃ (ρ : Source) (ω : List WEv) (φ : List (Option ErrorKind)) (taken : Bytes) (log : HsLog),
      (∀ tρ tω tφ out, handshakeWithInitialized A P prof h garbage decoys (ρ ++ tρ) ⟨ω ++ tω, φ ++ tφ, out⟩ =
        (⟨tω, tφ, out ++ taken⟩, log, withSession (M.join · tρ) x)) ∧
      r'.answers = r.answers ++ ρ ∧ r'.sent = r.sent ++ taken := by
  have hR := readRun_script hN
  unfold handshakeWithInitializedN at he
  cases hk : h.sendKey garbage (zeros (HsInitialized.sendKeyLen garbage)) with
  | mk keyBuffer z =>
  rw [hk] at he
  cases z with
  | panic =>
    simp only [Option.some.injEq, Prod.mk.injEq] at he
    obtain ⟨rfl, rfl⟩ := he
    refine ⟨[], [], [], [], ⟨[], []⟩, fun tρ tω tφ out => ?_, by simp, by simp⟩
    unfold handshakeWithInitialized
    simp only [hk, List.nil_append, List.append_nil]
    rfl
  | err e =>
    simp only [Option.some.injEq, Prod.mk.injEq] at he
    obtain ⟨rfl, rfl⟩ := he
    refine ⟨[], [], [], [], ⟨[], []⟩, fun tρ tω tφ out => ?_, by simp, by simp⟩
    unfold handshakeWithInitialized
    simp only [hk, List.nil_append, List.append_nil]
    rfl
  | ok h1 =>
  simp only at he
  cases hs : N.send fuel B.retry r keyBuffer with
  | none => rw [hs] at he; simp at he
  | some z =>
  obtain ⟨r1, z⟩ := z
  rw [hs] at he
  obtain ⟨ω1, φ1, t1, e1, s1, g1⟩ := sendN_script hs
  rw [← M.retry] at e1
  cases z with
  | error k =>
    simp only [Option.some.injEq, Prod.mk.injEq] at he
    obtain ⟨rfl, rfl⟩ := he
    refine ⟨[], ω1, φ1, t1, ⟨[], []⟩, fun tρ tω tφ out => ?_, by simp [g1], s1⟩
    unfold handshakeWithInitialized
    simp only [hk, e1]
    rfl
  | ok u =>
  simp only at he
  cases hr : readExactN fuel N.readRun B.retry r1 NUM_ELLIGATOR_SWIFT_BYTES [] with
  | none => rw [hr] at he; simp at he
  | some z =>
  obtain ⟨r2, z⟩ := z
  rw [hr] at he
  obtain ⟨ρ2, e2, g2, s2⟩ := readExactN_script hR _ _ _ _ _ _ hr
  rw [← M.retry] at e2
  have g2 : r2.answers = r.answers ++ ρ2 := g2.trans (by rw [← g1]; rfl)
  have s2 : r2.sent = r.sent ++ t1 := s2.trans s1
  cases z with
  | error k =>
    simp only [Option.some.injEq, Prod.mk.injEq] at he
    obtain ⟨rfl, rfl⟩ := he
    refine ⟨ρ2, ω1, φ1, t1, ⟨[], []⟩, fun tρ tω tφ out => ?_, g2, s2⟩
    unfold handshakeWithInitialized
    simp only [hk, e1, e2]
    rfl
  | ok key =>
  simp only at he
  cases hy : h1.receiveKey P key with
  | panic =>
    rw [hy] at he
    simp only [Option.some.injEq, Prod.mk.injEq] at he
    obtain ⟨rfl, rfl⟩ := he
    refine ⟨ρ2, ω1, φ1, t1, ⟨[], []⟩, fun tρ tω tφ out => ?_, g2, s2⟩
    unfold handshakeWithInitialized
    simp only [hk, e1, e2, hy]
    rfl
  | err e =>
    rw [hy] at he
    simp only [Option.some.injEq, Prod.mk.injEq] at he
    obtain ⟨rfl, rfl⟩ := he
    refine ⟨ρ2, ω1, φ1, t1, ⟨[], []⟩, fun tρ tω tφ out => ?_, g2, s2⟩
    unfold handshakeWithInitialized
    simp only [hk, e1, e2, hy]
    rfl
  | ok h2 =>
  rw [hy] at he
  simp only at he
  cases hv : h2.sendVersion P prof (zeros (HsReceivedKey.sendVersionLen decoys)) decoys with
  | mk versionBuffer z =>
  rw [hv] at he
  cases z with
  | panic =>
    simp only [Option.some.injEq, Prod.mk.injEq] at he
    obtain ⟨rfl, rfl⟩ := he
    refine ⟨ρ2, ω1, φ1, t1, ⟨[], []⟩, fun tρ tω tφ out => ?_, g2, s2⟩
    unfold handshakeWithInitialized
    simp only [hk, e1, e2, hy, hv]
    rfl
  | err e =>
    simp only [Option.some.injEq, Prod.mk.injEq] at he
    obtain ⟨rfl, rfl⟩ := he
    refine ⟨ρ2, ω1, φ1, t1, ⟨[], []⟩, fun tρ tω tφ out => ?_, g2, s2⟩
    unfold handshakeWithInitialized
    simp only [hk, e1, e2, hy, hv]
    rfl
  | ok h3 =>
  simp only at he
  cases hs3 : N.send fuel B.retry r2 versionBuffer with
  | none => rw [hs3] at he; simp at he
  | some z =>
  obtain ⟨r3, z⟩ := z
  rw [hs3] at he
  obtain ⟨ω3, φ3, t3, e3, s3, g3⟩ := sendN_script hs3
  rw [← M.retry] at e3
  have g3 : r3.answers = r.answers ++ ρ2 := g3.trans g2
  have s3 : r3.sent = r.sent ++ (t1 ++ t3) := by rw [s3, s2]; simp
  cases z with
  | error k =>
    simp only [Option.some.injEq, Prod.mk.injEq] at he
    obtain ⟨rfl, rfl⟩ := he
    refine ⟨ρ2, ω1 ++ ω3, φ1 ++ φ3, t1 ++ t3, ⟨[], []⟩, fun tρ tω tφ out => ?_, g3, s3⟩
    unfold handshakeWithInitialized
    simp only [hk, List.append_assoc, e1, e2, hy, hv, e3]
    rfl
  | ok u =>
  simp only at he
  cases hr4 : readExactN fuel N.readRun B.retry r3 NUM_GARBAGE_TERMINATOR_BYTES [] with
  | none => rw [hr4] at he; simp at he
  | some z =>
  obtain ⟨r4, z⟩ := z
  rw [hr4] at he
  obtain ⟨ρ4, e4, g4, s4⟩ := readExactN_script hR _ _ _ _ _ _ hr4
  rw [← M.retry] at e4
  have g4 : r4.answers = r.answers ++ (ρ2 ++ ρ4) := g4.trans (by rw [← List.append_assoc, ← g3]; rfl)
  have s4 : r4.sent = r.sent ++ (t1 ++ t3) := s4.trans s3
  cases z with
  | error k =>
    simp only [Option.some.injEq, Prod.mk.injEq] at he
    obtain ⟨rfl, rfl⟩ := he
    refine ⟨ρ2 ++ ρ4, ω1 ++ ω3, φ1 ++ φ3, t1 ++ t3, ⟨[], []⟩, fun tρ tω tφ out => ?_, g4, s4⟩
    unfold handshakeWithInitialized
    simp only [hk, List.append_assoc, e1, e2, hy, hv, e3, e4]
    rfl
  | ok gb =>
  simp only at he
  cases hg : garbageLoopN fuel N h3 gb r4 with
  | none => rw [hg] at he; simp at he
  | some z =>
  obtain ⟨r5, z⟩ := z
  rw [hg] at he
  obtain ⟨ρ5, glog, e5, g5, s5⟩ := garbageLoopN_script hN _ _ _ _ _ hg
  have g5 : r5.answers = r.answers ++ (ρ2 ++ (ρ4 ++ ρ5)) := by rw [g5, g4]; simp
  have s5 : r5.sent = r.sent ++ (t1 ++ t3) := s5.trans s4
  cases z with
  | panic =>
    simp only [Option.some.injEq, Prod.mk.injEq] at he
    obtain ⟨rfl, rfl⟩ := he
    refine ⟨ρ2 ++ (ρ4 ++ ρ5), ω1 ++ ω3, φ1 ++ φ3, t1 ++ t3, ⟨glog, []⟩, fun tρ tω tφ out => ?_, g5, s5⟩
    unfold handshakeWithInitialized
    simp only [hk, List.append_assoc, e1, e2, hy, hv, e3, e4, e5]
    rfl
  | err e =>
    simp only [Option.some.injEq, Prod.mk.injEq] at he
    obtain ⟨rfl, rfl⟩ := he
    refine ⟨ρ2 ++ (ρ4 ++ ρ5), ω1 ++ ω3, φ1 ++ φ3, t1 ++ t3, ⟨glog, []⟩, fun tρ tω tφ out => ?_, g5, s5⟩
    unfold handshakeWithInitialized
    simp only [hk, List.append_assoc, e1, e2, hy, hv, e3, e4, e5]
    rfl
  | ok y =>
  obtain ⟨h5, n, gbuf⟩ := y
  simp only at he
  obtain ⟨ρ6, plog, e6, g6, s6⟩ := versionLoopN_script M hN _ _ _ _ he
  refine ⟨ρ2 ++ (ρ4 ++ (ρ5 ++ ρ6)), ω1 ++ ω3, φ1 ++ φ3, t1 ++ t3, ⟨glog, plog⟩, fun tρ tω tφ out => ?_, ?_, s6.trans s5⟩
  · unfold handshakeWithInitialized
    have e6 := e6 tρ
    simp only [← M.made] at e6
    simp only [hk, List.append_assoc, e1, e2, hy, hv, e3, e4, e5, withSource, e6]
  · rw [g6, g5]; simp

theorem handshakeN_script {A : Api} {B : ApiN} (M : ApiMatch A B) {N : Conn σ} (hN : N.Keeps) (magic : Bytes) (role : Role)
    (rngBytes : Bytes) (garbage : Option Bytes) (decoys : Option (List Bytes)) (r r' : ConnRun σ)
    (x : Outcome ProtocolError (InboundCipher × OutboundCipher × B.Sess))
    (he : handshakeN fuel B N P prof magic role rngBytes garbage decoys r = some (r', x)) :
    ∃ (ρ : Source) (ω : List WEv) (φ : List (Option ErrorKind)) (taken : Bytes) (log : HsLog),
      (∀ tρ tω tφ out, handshake A P prof magic role rngBytes garbage decoys (ρ ++ tρ) ⟨ω ++ tω, φ ++ tφ, out⟩ =
        (⟨tω, tφ, out ++ taken⟩, log, withSession (M.join · tρ) x)) ∧
      r'.answers = r.answers ++ ρ ∧ r'.sent = r.sent ++ taken := by
  unfold handshakeN at he
  unfold handshake
  cases hh : HsInitialized.newWithRng P prof magic role rngBytes with
  | panic =>
    rw [hh] at he
    simp only [Option.some.injEq, Prod.mk.injEq] at he
    obtain ⟨rfl, rfl⟩ := he
    exact ⟨[], [], [], [], ⟨[], []⟩, fun tρ tω tφ out => by simp [withSession], by simp, by simp⟩
  | err e =>
    rw [hh] at he
    simp only [Option.some.injEq, Prod.mk.injEq] at he
    obtain ⟨rfl, rfl⟩ := he
    exact ⟨[], [], [], [], ⟨[], []⟩, fun tρ tω tφ out => by simp [withSession], by simp, by simp⟩
  | ok h =>
    rw [hh] at he
    exact handshakeWithInitializedN_script M hN h garbage decoys r r' x he

/-! ## Sessions -/

theorem syncReadN_script {N : Conn σ} (hN : N.Keeps) (c : InboundCipher) (s : (Bytes × Bool) × ConnRun σ)
    (c' : InboundCipher) (s' : (Bytes × Bool) × ConnRun σ) (x : Outcome ProtocolError Payload)
    (he : syncReadN fuel N P prof c s = some ((c', s'), x)) :
    ∃ ρ : Source, (∀ tail, SyncReader.read P prof ⟨c, ⟨s.1.1, s.1.2, ρ ++ tail⟩⟩ = (⟨c', ⟨s'.1.1, s'.1.2, tail⟩⟩, x)) ∧
      s'.2.answers = s.2.answers ++ ρ ∧ s'.2.sent = s.2.sent := by
  have hR := syncMatch.reads (readRun_script hN)
  unfold syncReadN at he
  cases h1 : readExactN fuel (syncN.read N.readRun) true s NUM_LENGTH_BYTES [] with
  | none => rw [h1] at he; simp at he
  | some z =>
  obtain ⟨s1, z⟩ := z
  obtain ⟨ρ1, e1, g1, t1⟩ := readExactN_script hR true _ _ _ _ _ h1
  have e1 : ∀ tail, SyncSession.reader.readExact true ⟨s.1.1, s.1.2, ρ1 ++ tail⟩ NUM_LENGTH_BYTES [] =
    (⟨s1.1.1, s1.1.2, tail⟩, z) := e1
  rw [h1] at he
  cases z with
  | error k =>
    simp only [Option.some.injEq, Prod.mk.injEq] at he
    obtain ⟨⟨rfl, rfl⟩, rfl⟩ := he
    refine ⟨ρ1, fun tail => ?_, g1, t1⟩
    unfold SyncReader.read
    simp only [e1]
  | ok lb =>
  simp only at he
  cases hd : c.decryptPacketLen P prof lb with
  | mk c1 z =>
  rw [hd] at he
  cases z with
  | panic =>
    simp only [Option.some.injEq, Prod.mk.injEq] at he
    obtain ⟨⟨rfl, rfl⟩, rfl⟩ := he
    refine ⟨ρ1, fun tail => ?_, g1, t1⟩
    unfold SyncReader.read
    simp only [e1, hd]
  | err e =>
    simp only [Option.some.injEq, Prod.mk.injEq] at he
    obtain ⟨⟨rfl, rfl⟩, rfl⟩ := he
    refine ⟨ρ1, fun tail => ?_, g1, t1⟩
    unfold SyncReader.read
    simp only [e1, hd]
  | ok len =>
  simp only at he
  cases h2 : readExactN fuel (syncN.read N.readRun) true s1 len [] with
  | none => rw [h2] at he; simp at he
  | some z =>
  obtain ⟨s2, z⟩ := z
  obtain ⟨ρ2, e2, g2, t2⟩ := readExactN_script hR true _ _ _ _ _ h2
  have e2 : ∀ tail, SyncSession.reader.readExact true ⟨s1.1.1, s1.1.2, ρ2 ++ tail⟩ len [] =
    (⟨s2.1.1, s2.1.2, tail⟩, z) := e2
  have g12 : s2.2.answers = s.2.answers ++ (ρ1 ++ ρ2) := by rw [g2, g1]; simp
  have t12 := t2.trans t1
  rw [h2] at he
  cases z with
  | error k =>
    simp only [Option.some.injEq, Prod.mk.injEq] at he
    obtain ⟨⟨rfl, rfl⟩, rfl⟩ := he
    refine ⟨ρ1 ++ ρ2, fun tail => ?_, g12, t12⟩
    unfold SyncReader.read
    simp only [List.append_assoc, e1, hd, e2]
  | ok pkt =>
  simp only at he
  cases hp : c1.decryptToVec P prof pkt none with
  | mk c2 z =>
  rw [hp] at he
  cases z with
  | panic =>
    simp only [Option.some.injEq, Prod.mk.injEq] at he
    obtain ⟨⟨rfl, rfl⟩, rfl⟩ := he
    refine ⟨ρ1 ++ ρ2, fun tail => ?_, g12, t12⟩
    unfold SyncReader.read
    simp only [List.append_assoc, e1, hd, e2, hp]
  | err e =>
    simp only [Option.some.injEq, Prod.mk.injEq] at he
    obtain ⟨⟨rfl, rfl⟩, rfl⟩ := he
    refine ⟨ρ1 ++ ρ2, fun tail => ?_, g12, t12⟩
    unfold SyncReader.read
    simp only [List.append_assoc, e1, hd, e2, hp]
  | ok y =>
  simp only at he
  cases hm : Payload.mkDecrypted prof y.2 with
  | none =>
    simp only [hm, Option.some.injEq, Prod.mk.injEq] at he
    obtain ⟨⟨rfl, rfl⟩, rfl⟩ := he
    refine ⟨ρ1 ++ ρ2, fun tail => ?_, g12, t12⟩
    unfold SyncReader.read
    simp only [List.append_assoc, e1, hd, e2, hp, hm]
  | some q =>
    simp only [hm, Option.some.injEq, Prod.mk.injEq] at he
    obtain ⟨⟨rfl, rfl⟩, rfl⟩ := he
    refine ⟨ρ1 ++ ρ2, fun tail => ?_, g12, t12⟩
    unfold SyncReader.read
    simp only [List.append_assoc, e1, hd, e2, hp, hm]

/-- `Writer.write` of either API in the shape of `writeN`. -/
theorem write_unfold (f : Flavour) (w : Writer) (payload : Payload) :
    w.write f P prof payload = match payload.contents, payload.packetType with
      | some contents, some ty =>
        match encryptFor f P prof w.cipher contents ty with
        | (c, .panic) => ({ w with cipher := c }, .panic)
        | (c, .err e) => ({ w with cipher := c }, .err (.internal e))
        | (c, .ok packetBuffer) =>
          match w.writer.send f.retry packetBuffer with
          | (s, .error k) => (⟨c, s⟩, .err (.fromIo k))
          | (s, .ok ()) => (⟨c, s⟩, .ok ())
      | _, _ => (w, .panic) := by
  cases f with
  | sync => rfl
  | async =>
    show w.writeAsync P prof payload = _
    unfold Writer.writeAsync encryptFor
    split
    · split <;> simp only [*] <;> rfl
    · split <;> simp_all

theorem writeN_script {f : Flavour} {N : Conn σ} {c c' : OutboundCipher} {r r' : ConnRun σ} {payload : Payload}
    {x : Outcome ProtocolError Unit} (he : writeN fuel f N P prof c r payload = some ((c', r'), x)) :
    ∃ (ω : List WEv) (φ : List (Option ErrorKind)) (taken : Bytes),
      (∀ tω tφ out, Writer.write f P prof ⟨c, ⟨ω ++ tω, φ ++ tφ, out⟩⟩ payload = (⟨c', ⟨tω, tφ, out ++ taken⟩⟩, x)) ∧
      r'.sent = r.sent ++ taken ∧ r'.answers = r.answers := by
  have hu := fun w => write_unfold (P := P) (prof := prof) f w payload
  unfold writeN at he
  cases hc : payload.contents with
  | none =>
    simp only [hc, Option.some.injEq, Prod.mk.injEq] at he
    obtain ⟨⟨rfl, rfl⟩, rfl⟩ := he
    exact ⟨[], [], [], fun tω tφ out => by rw [hu, hc]; simp, by simp, rfl⟩
  | some contents =>
  cases ht : payload.packetType with
  | none =>
    simp only [hc, ht, Option.some.injEq, Prod.mk.injEq] at he
    obtain ⟨⟨rfl, rfl⟩, rfl⟩ := he
    exact ⟨[], [], [], fun tω tφ out => by rw [hu, hc, ht]; simp, by simp, rfl⟩
  | some ty =>
  simp only [hc, ht] at he hu
  cases hen : encryptFor f P prof c contents ty with
  | mk c1 z =>
  rw [hen] at he
  cases z with
  | panic =>
    simp only [Option.some.injEq, Prod.mk.injEq] at he
    obtain ⟨⟨rfl, rfl⟩, rfl⟩ := he
    exact ⟨[], [], [], fun tω tφ out => by rw [hu]; simp [hen], by simp, rfl⟩
  | err e =>
    simp only [Option.some.injEq, Prod.mk.injEq] at he
    obtain ⟨⟨rfl, rfl⟩, rfl⟩ := he
    exact ⟨[], [], [], fun tω tφ out => by rw [hu]; simp [hen], by simp, rfl⟩
  | ok pkt =>
  simp only at he
  cases hs : N.send fuel f.retry r pkt with
  | none => rw [hs] at he; simp at he
  | some z =>
  obtain ⟨r1, z⟩ := z
  rw [hs] at he
  obtain ⟨ω, φ, t, e1, s1, g1⟩ := sendN_script hs
  cases z with
  | error k =>
    simp only [Option.some.injEq, Prod.mk.injEq] at he
    obtain ⟨⟨rfl, rfl⟩, rfl⟩ := he
    exact ⟨ω, φ, t, fun tω tφ out => by rw [hu]; simp only [hen, e1], s1, g1⟩
  | ok u =>
    simp only [Option.some.injEq, Prod.mk.injEq] at he
    obtain ⟨⟨rfl, rfl⟩, rfl⟩ := he
    exact ⟨ω, φ, t, fun tω tφ out => by rw [hu]; simp only [hen, e1], s1, g1⟩

/-! ## Polling -/

structure PollConn.Keeps (N : PollConn σ) : Prop where
  conn : N.toConn.Keeps
  poll : ∀ s n s' bs, N.pollRead s n = (s', .ready (.ok bs)) → bs.length ≤ n

theorem pollRun_script {N : PollConn σ} (hN : N.Keeps) (r : ConnRun σ) (n : Nat) (r' : ConnRun σ) (x : PollRead)
    (h : N.pollRun r n = (r', x)) :
    ∃ ρ : Source, (∀ tail, Source.pollRead (ρ ++ tail) n = (tail, x)) ∧ r'.answers = r.answers ++ ρ ∧ r'.sent = r.sent := by
  unfold PollConn.pollRun at h
  cases hr : N.pollRead r.net n with
  | mk s y =>
  rw [hr] at h
  cases y with
  | pending =>
    simp only [Prod.mk.injEq] at h
    obtain ⟨rfl, rfl⟩ := h
    exact ⟨[.pending], fun tail => rfl, by simp, rfl⟩
  | ready y =>
  cases y with
  | ok bs =>
    simp only [Prod.mk.injEq] at h
    obtain ⟨rfl, rfl⟩ := h
    refine ⟨[.data bs], fun tail => ?_, by simp, rfl⟩
    exact if_pos (hN.poll _ _ _ _ hr)
  | err k =>
    simp only [Prod.mk.injEq] at h
    obtain ⟨rfl, rfl⟩ := h
    exact ⟨[.fail k], fun tail => rfl, by simp, rfl⟩

/-- The session of the script model. -/
abbrev sessAt (s : (Bytes × Nat) × ConnRun σ) (src : Source) : AsyncSession := ⟨s.1.1, s.1.2, src⟩

theorem sessPollN_script {N : PollConn σ} (hN : N.Keeps) (s : (Bytes × Nat) × ConnRun σ) (n : Nat)
    (s' : (Bytes × Nat) × ConnRun σ) (x : PollRead) (h : sessPollN N s n = (s', x)) :
    ∃ ρ : Source, (∀ tail, (sessAt s (ρ ++ tail)).pollRead n = (sessAt s' tail, x)) ∧
      s'.2.answers = s.2.answers ++ ρ ∧ s'.2.sent = s.2.sent := by
  unfold sessPollN at h
  by_cases hd : s.1.2 < s.1.1.length
  · simp only [if_pos hd, Prod.mk.injEq] at h
    obtain ⟨rfl, rfl⟩ := h
    refine ⟨[], fun tail => ?_, by simp, rfl⟩
    unfold AsyncSession.pollRead
    simp only [if_pos hd]
    rfl
  · simp only [if_neg hd] at h
    cases hx : N.pollRun s.2 n with
    | mk r1 y =>
    rw [hx] at h
    simp only [Prod.mk.injEq] at h
    obtain ⟨rfl, rfl⟩ := h
    obtain ⟨ρ, h1, h2, h3⟩ := pollRun_script hN _ _ _ _ hx
    refine ⟨ρ, fun tail => ?_, h2, h3⟩
    unfold AsyncSession.pollRead
    simp only [if_neg hd, h1]

theorem pollFill_unfold (s : AsyncSession) (buf : Bytes) (bytesRead : Nat) :
    pollFill s buf bytesRead = if bytesRead < buf.length then
      match s.pollRead (buf.length - bytesRead) with
      | (s', .pending) => .pending s' buf bytesRead
      | (s', .ready (.err k)) => .err s' buf bytesRead k
      | (s', .ready (.ok [])) => .err s' buf bytesRead .connectionAborted
      | (s', .ready (.ok (b :: bs))) =>
        pollFill s' (writeAt buf bytesRead (b :: bs)) (bytesRead + (b :: bs).length)
    else .full s buf bytesRead := by
  rw [pollFill]
  split
  · split <;> simp_all
  · rfl

/-- The result on a script. -/
def FillN.on (tail : Source) : FillN σ → FillResult
  | .full s buf n => .full (sessAt s tail) buf n
  | .pending s buf n => .pending (sessAt s tail) buf n
  | .err s buf n k => .err (sessAt s tail) buf n k

/-- The transport in it. -/
def FillN.run : FillN σ → ConnRun σ
  | .full s _ _ => s.2
  | .pending s _ _ => s.2
  | .err s _ _ _ => s.2

theorem pollFillN_script {N : PollConn σ} (hN : N.Keeps) (s : (Bytes × Nat) × ConnRun σ) (buf : Bytes) (n : Nat)
    (x : FillN σ) (h : pollFillN fuel N s buf n = some x) :
    ∃ ρ : Source, (∀ tail, pollFill (sessAt s (ρ ++ tail)) buf n = x.on tail) ∧
      x.run.answers = s.2.answers ++ ρ ∧ x.run.sent = s.2.sent := by
  have key : ∀ fuel s buf n x, pollFillN fuel N s buf n = some x → ∃ ρ : Source, (∀ tail, pollFill (sessAt s (ρ ++ tail)) buf n = x.on tail) ∧
      x.run.answers = s.2.answers ++ ρ ∧ x.run.sent = s.2.sent := by
    intro fuel
    induction fuel with
    | zero => intro s buf n x h; simp [pollFillN] at h
    | succ fuel ih =>
    intro s buf n x h
    unfold pollFillN at h
    have hu := fun s => pollFill_unfold s buf n
    by_cases hlt : n < buf.length
    · rw [if_pos hlt] at h
      simp only [if_pos hlt] at hu
      cases hp : sessPollN N s (buf.length - n) with
      | mk s1 z =>
      rw [hp] at h
      obtain ⟨ρ, h1, h2, h3⟩ := sessPollN_script hN _ _ _ _ hp
      cases z with
      | pending =>
        simp only [Option.some.injEq] at h
        subst h
        exact ⟨ρ, fun tail => by rw [hu, h1]; rfl, h2, h3⟩
      | ready z =>
      cases z with
      | err k =>
        simp only [Option.some.injEq] at h
        subst h
        exact ⟨ρ, fun tail => by rw [hu, h1]; rfl, h2, h3⟩
      | ok bs =>
      cases bs with
      | nil =>
        simp only [Option.some.injEq] at h
        subst h
        exact ⟨ρ, fun tail => by rw [hu, h1]; rfl, h2, h3⟩
      | cons b bs =>
        simp only at h
        obtain ⟨ρ', h4, h5, h6⟩ := ih _ _ _ _ h
        exact ⟨ρ ++ ρ', fun tail => by rw [List.append_assoc, hu, h1]; exact h4 tail, by rw [h5, h2]; simp, h6.trans h3⟩
    · rw [if_neg hlt] at h
      simp only [if_neg hlt] at hu
      simp only [Option.some.injEq] at h
      subst h
      exact ⟨[], fun tail => by rw [hu]; rfl, by simp [Source.bytes, FillN.run], rfl⟩
  exact key fuel s buf n x h

/-- The reader of the script model. -/
abbrev readerAt (r : AsyncReaderN σ) (src : Source) : AsyncReader := ⟨r.cipher, sessAt r.reader src, r.state⟩

theorem pollPayloadN_script {N : PollConn σ} (hN : N.Keeps) (c : InboundCipher) (s : (Bytes × Nat) × ConnRun σ)
    (buf : Bytes) (n : Nat) (r' : AsyncReaderN σ) (x : PollResult)
    (h : AsyncReaderN.pollPayload fuel N P prof c s buf n = some (r', x)) :
    ∃ ρ : Source, (∀ tail, AsyncReader.pollPayload P prof c (sessAt s (ρ ++ tail)) buf n = (readerAt r' tail, x)) ∧
      r'.reader.2.answers = s.2.answers ++ ρ ∧ r'.reader.2.sent = s.2.sent := by
  unfold AsyncReaderN.pollPayload at h
  cases hf : pollFillN fuel N s buf n with
  | none => rw [hf] at h; simp at h
  | some z =>
  rw [hf] at h
  obtain ⟨ρ, h1, h2, h3⟩ := pollFillN_script hN _ _ _ _ hf
  refine ⟨ρ, fun tail => ?_, ?_⟩
  · unfold AsyncReader.pollPayload
    rw [h1]
    cases z <;> simp only [FillN.on] at h ⊢
    all_goals repeat' split at h
    all_goals
      simp only [Option.some.injEq, Prod.mk.injEq] at h
      obtain ⟨rfl, rfl⟩ := h
    all_goals simp only [*]
  · have : r'.reader.2 = z.run := by
      cases z <;> simp only at h
      all_goals repeat' split at h
      all_goals
        simp only [Option.some.injEq, Prod.mk.injEq] at h
        obtain ⟨rfl, rfl⟩ := h
      all_goals rfl
    rw [this]
    exact ⟨h2, h3⟩

theorem pollN_script {N : PollConn σ} (hN : N.Keeps) (r r' : AsyncReaderN σ) (x : PollResult)
    (h : AsyncReaderN.poll fuel N P prof r = some (r', x)) :
    ∃ ρ : Source, (∀ tail, (readerAt r (ρ ++ tail)).poll P prof = (readerAt r' tail, x)) ∧
      r'.reader.2.answers = r.reader.2.answers ++ ρ ∧ r'.reader.2.sent = r.reader.2.sent := by
  unfold AsyncReaderN.poll at h
  cases hst : r.state with
  | readingPayload buf n =>
    rw [hst] at h
    obtain ⟨ρ, h1, h2⟩ := pollPayloadN_script hN _ _ _ _ _ _ h
    refine ⟨ρ, fun tail => ?_, h2⟩
    unfold AsyncReader.poll
    simp only [hst]
    exact h1 tail
  | readingLength buf n =>
  rw [hst] at h
  simp only at h
  cases hf : pollFillN fuel N r.reader buf n with
  | none => rw [hf] at h; simp at h
  | some z =>
  rw [hf] at h
  obtain ⟨ρ, h1, h2, h3⟩ := pollFillN_script hN _ _ _ _ hf
  have hu : ∀ tail, (readerAt r (ρ ++ tail)).poll P prof = match z.on tail with
    | .pending s buf n => (⟨r.cipher, s, .readingLength buf n⟩, .pending)
    | .err s buf n k => (⟨r.cipher, s, .readingLength buf n⟩, .ready (.err (.fromIo k)))
    | .full s buf n =>
      match r.cipher.decryptPacketLen P prof buf with
      | (c, .panic) => (⟨c, s, .readingLength buf n⟩, .ready .panic)
      | (c, .err e) => (⟨c, s, .readingLength buf n⟩, .ready (.err (.internal e)))
      | (c, .ok packetBytesLen) =>
        AsyncReader.pollPayload P prof c s (zeros packetBytesLen) 0 := by
    intro tail
    unfold AsyncReader.poll
    simp only [hst, h1]
    rfl
  cases z with
  | pending s1 buf1 n1 =>
    simp only [Option.some.injEq, Prod.mk.injEq] at h
    obtain ⟨rfl, rfl⟩ := h
    exact ⟨ρ, hu, h2, h3⟩
  | err s1 buf1 n1 k =>
    simp only [Option.some.injEq, Prod.mk.injEq] at h
    obtain ⟨rfl, rfl⟩ := h
    exact ⟨ρ, hu, h2, h3⟩
  | full s1 buf1 n1 =>
    simp only [FillN.on] at h hu
    cases hd : r.cipher.decryptPacketLen P prof buf1 with
    | mk c1 w =>
    rw [hd] at h
    simp only [hd] at hu
    cases w with
    | panic =>
      simp only [Option.some.injEq, Prod.mk.injEq] at h
      obtain ⟨rfl, rfl⟩ := h
      exact ⟨ρ, hu, h2, h3⟩
    | err e =>
      simp only [Option.some.injEq, Prod.mk.injEq] at h
      obtain ⟨rfl, rfl⟩ := h
      exact ⟨ρ, hu, h2, h3⟩
    | ok len =>
      simp only at h hu
      obtain ⟨ρ', h4, h5, h6⟩ := pollPayloadN_script hN _ _ _ _ _ _ h
      refine ⟨ρ ++ ρ', fun tail => by rw [List.append_assoc, hu]; exact h4 tail, ?_, h6.trans h3⟩
      have h2 : s1.2.answers = r.reader.2.answers ++ ρ := h2
      rw [h5, h2]; simp

end Bip324
