import Verif.Model.Halves
import Verif.Lemmas.AnyTransport

/-!
# Steps of the two halves are steps over scripts
-/

namespace Bip324

variable {P : Prims} {prof : Profile} {σ : Type}

/-! ## Reading -/

/-- What a reader half does, call by call of the transport, against what `big` does over a script.  `on`: the half over a
script; `resume`: the rest of the call in progress, over a script. -/
structure HalfApi.Refines {H Res T : Type} (A : HalfApi σ H Res) (big : T → T × Res) where
  on : H → Source → T
  resume : H → Source → T × Res
  Idle : H → Prop
  idle : ∀ h, Idle h → ∀ src, resume h src = big (on h src)
  start_idle : ∀ h, Idle (A.start h) → Idle h
  start_on : ∀ h src, on (A.start h) src = on h src
  start_resume : ∀ h src, resume (A.start h) src = resume h src
  goes : ∀ h r h' r', A.step h r = some (h', r', none) → ¬ Idle h' ∧
    ∃ ρ : Source, (∀ tail, resume h (ρ ++ tail) = resume h' tail) ∧ r'.answers = r.answers ++ ρ ∧ r'.sent = r.sent
  ends : ∀ h r h' r' x, A.step h r = some (h', r', some x) → Idle h' ∧
    ∃ ρ : Source, (∀ tail, resume h (ρ ++ tail) = (on h' tail, x)) ∧ r'.answers = r.answers ++ ρ ∧ r'.sent = r.sent

/-- The blocking half over a script. -/
def SyncHalf.on (h : SyncHalf) (src : Source) : SyncReader := ⟨h.cipher, ⟨h.sess.1, h.sess.2, src⟩⟩

/-- io.rs:530-536, after the bytes of the packet. -/
def afterPacket (P : Prims) (prof : Profile) (c : InboundCipher) :
    SyncSession × Except ErrorKind Bytes → SyncReader × Outcome ProtocolError Payload
  | (s, .error k) => (⟨c, s⟩, .err (.fromIo k))
  | (s, .ok packetBytes) =>
    match c.decryptToVec P prof packetBytes none with
    | (c, .panic) => (⟨c, s⟩, .panic)
    | (c, .err e) => (⟨c, s⟩, .err (.internal e))
    | (c, .ok (_, plaintextBuffer)) =>
      match Payload.mkDecrypted prof plaintextBuffer with
      | none => (⟨c, s⟩, .panic)
      | some p => (⟨c, s⟩, .ok p)

/-- io.rs:527-536, after the bytes of the length. -/
def afterLength (P : Prims) (prof : Profile) (c : InboundCipher) :
    SyncSession × Except ErrorKind Bytes → SyncReader × Outcome ProtocolError Payload
  | (s, .error k) => (⟨c, s⟩, .err (.fromIo k))
  | (s, .ok lengthBytes) =>
    match c.decryptPacketLen P prof lengthBytes with
    | (c, .panic) => (⟨c, s⟩, .panic)
    | (c, .err e) => (⟨c, s⟩, .err (.internal e))
    | (c, .ok n) => afterPacket P prof c (SyncSession.reader.readExact true s n)

theorem read_afterLength (r : SyncReader) :
    r.read P prof = afterLength P prof r.cipher (SyncSession.reader.readExact true r.reader NUM_LENGTH_BYTES) := by
  unfold SyncReader.read afterLength
  cases SyncSession.reader.readExact true r.reader NUM_LENGTH_BYTES with
  | mk s x =>
  cases x with
  | error k => rfl
  | ok lb =>
  simp only
  cases r.cipher.decryptPacketLen P prof lb with
  | mk c y =>
  cases y with
  | panic => rfl
  | err e => rfl
  | ok n =>
  simp only [afterPacket]
  cases SyncSession.reader.readExact true s n with
  | mk s x =>
  cases x with
  | error k => rfl
  | ok pb =>
  simp only
  cases c.decryptToVec P prof pb none with
  | mk c y =>
  cases y with
  | panic => rfl
  | err e => rfl
  | ok v => rfl

/-- The rest of the call in progress. -/
def SyncHalf.resume (P : Prims) (prof : Profile) (h : SyncHalf) (src : Source) : SyncReader × Outcome ProtocolError Payload :=
  match h.pc with
  | .idle => (h.on src).read P prof
  | .length acc =>
    afterLength P prof h.cipher
      (SyncSession.reader.readExact true (h.on src).reader (NUM_LENGTH_BYTES - acc.length) acc)
  | .packet need acc =>
    afterPacket P prof h.cipher (SyncSession.reader.readExact true (h.on src).reader (need - acc.length) acc)

theorem syncSess_script {N : Conn σ} (hN : N.Keeps) {s s' : Bytes × Bool} {r r' : ConnRun σ} {n : Nat} {x : ReadRes}
    (h : syncN.read N.readRun (s, r) n = some ((s', r'), x)) :
    ∃ ρ : Source, (∀ tail, SyncSession.reader.read ⟨s.1, s.2, ρ ++ tail⟩ n = (⟨s'.1, s'.2, tail⟩, x)) ∧
      r'.answers = r.answers ++ ρ ∧ r'.sent = r.sent :=
  syncMatch.reads (readRun_script hN) (s, r) n (s', r') x h

theorem length_sub (n : Nat) (acc bs : Bytes) : n - acc.length - bs.length = n - (acc ++ bs).length := by
  rw [List.length_append]; omega

/-- The blocking half. -/
def syncRefines {N : Conn σ} (hN : N.Keeps) :
    (syncHalf N P prof).Refines (fun r : SyncReader => r.read P prof) where
  on := SyncHalf.on
  resume := SyncHalf.resume P prof
  Idle h := h.pc = .idle
  idle h hi src := by simp only [SyncHalf.resume, hi]
  start_idle h hi := by
    simp only [syncHalf] at hi
    split at hi
    · assumption
    · exact hi
  start_on h src := by
    simp only [syncHalf]
    split <;> rfl
  start_resume h src := by
    simp only [syncHalf]
    split
    · rename_i hi
      simp only [SyncHalf.resume, hi, read_afterLength]
      rfl
    · rfl
  goes h r h' r' he := by
    obtain ⟨c, s, pc⟩ := h
    simp only [syncHalf, SyncHalf.step] at he
    cases pc with
    | idle => simp at he
    | length acc =>
      simp only at he
      split at he
      · rename_i h0
        split at he <;> simp only [Option.some.injEq, Prod.mk.injEq, reduceCtorEq, and_false] at he
        rename_i c' n hd
        obtain ⟨rfl, rfl, -⟩ := he
        refine ⟨by simp, [], fun tail => ?_, by simp, rfl⟩
        simp only [SyncHalf.resume, SyncHalf.on, List.nil_append]
        rw [readExact_unfold, if_pos h0]
        simp only [afterLength, hd, List.length_nil, Nat.sub_zero]
      · rename_i h0
        split at he
        · simp at he
        · simp at he
        · rename_i s1 r1 b bs hr
          simp only [Option.some.injEq, Prod.mk.injEq] at he
          obtain ⟨rfl, rfl, -⟩ := he
          obtain ⟨ρ, h1, h2, h3⟩ := syncSess_script hN hr
          refine ⟨by simp, ρ, fun tail => ?_, h2, h3⟩
          simp only [SyncHalf.resume, SyncHalf.on]
          rw [readExact_unfold, if_neg h0, h1, ← length_sub]
        · rename_i s1 r1 k hr
          split at he
          · rename_i hk
            simp only [Option.some.injEq, Prod.mk.injEq] at he
            obtain ⟨rfl, rfl, -⟩ := he
            obtain ⟨ρ, h1, h2, h3⟩ := syncSess_script hN hr
            refine ⟨by simp, ρ, fun tail => ?_, h2, h3⟩
            simp only [SyncHalf.resume, SyncHalf.on]
            rw [readExact_unfold, if_neg h0, h1]
            simp only [hk, Bool.and_self, if_true]
          · simp at he
    | packet need acc =>
      simp only at he
      split at he
      · rename_i h0
        split at he
        · simp at he
        · simp at he
        · split at he <;> simp at he
      · rename_i h0
        split at he
        · simp at he
        · simp at he
        · rename_i s1 r1 b bs hr
          simp only [Option.some.injEq, Prod.mk.injEq] at he
          obtain ⟨rfl, rfl, -⟩ := he
          obtain ⟨ρ, h1, h2, h3⟩ := syncSess_script hN hr
          refine ⟨by simp, ρ, fun tail => ?_, h2, h3⟩
          simp only [SyncHalf.resume, SyncHalf.on]
          rw [readExact_unfold, if_neg h0, h1, ← length_sub]
        · rename_i s1 r1 k hr
          split at he
          · rename_i hk
            simp only [Option.some.injEq, Prod.mk.injEq] at he
            obtain ⟨rfl, rfl, -⟩ := he
            obtain ⟨ρ, h1, h2, h3⟩ := syncSess_script hN hr
            refine ⟨by simp, ρ, fun tail => ?_, h2, h3⟩
            simp only [SyncHalf.resume, SyncHalf.on]
            rw [readExact_unfold, if_neg h0, h1]
            simp only [hk, Bool.and_self, if_true]
          · simp at he
  ends h r h' r' x he := by
    obtain ⟨c, s, pc⟩ := h
    simp only [syncHalf, SyncHalf.step] at he
    cases pc with
    | idle => simp at he
    | length acc =>
      simp only at he
      split at he
      · rename_i h0
        split at he <;> simp only [Option.some.injEq, Prod.mk.injEq, reduceCtorEq, and_false] at he
        all_goals
          rename_i hd
          obtain ⟨rfl, rfl, rfl⟩ := he
          refine ⟨rfl, [], fun tail => ?_, by simp, rfl⟩
          simp only [SyncHalf.resume, SyncHalf.on, List.nil_append]
          rw [readExact_unfold, if_pos h0]
          simp only [afterLength, hd]
      · rename_i h0
        split at he
        · simp at he
        · rename_i s1 r1 hr
          simp only [Option.some.injEq, Prod.mk.injEq] at he
          obtain ⟨rfl, rfl, rfl⟩ := he
          obtain ⟨ρ, h1, h2, h3⟩ := syncSess_script hN hr
          refine ⟨rfl, ρ, fun tail => ?_, h2, h3⟩
          simp only [SyncHalf.resume, SyncHalf.on]
          rw [readExact_unfold, if_neg h0, h1]
          rfl
        · simp at he
        · rename_i s1 r1 k hr
          split at he
          · simp at he
          · rename_i hk
            simp only [Option.some.injEq, Prod.mk.injEq] at he
            obtain ⟨rfl, rfl, rfl⟩ := he
            obtain ⟨ρ, h1, h2, h3⟩ := syncSess_script hN hr
            refine ⟨rfl, ρ, fun tail => ?_, h2, h3⟩
            simp only [SyncHalf.resume, SyncHalf.on]
            rw [readExact_unfold, if_neg h0, h1]
            simp only [hk, Bool.and_false, if_false, Bool.false_eq_true]
            rfl
    | packet need acc =>
      simp only at he
      split at he
      · rename_i h0
        split at he
        · rename_i hd
          simp only [Option.some.injEq, Prod.mk.injEq] at he
          obtain ⟨rfl, rfl, rfl⟩ := he
          refine ⟨rfl, [], fun tail => ?_, by simp, rfl⟩
          simp only [SyncHalf.resume, SyncHalf.on, List.nil_append]
          rw [readExact_unfold, if_pos h0]
          simp only [afterPacket, hd]
        · rename_i hd
          simp only [Option.some.injEq, Prod.mk.injEq] at he
          obtain ⟨rfl, rfl, rfl⟩ := he
          refine ⟨rfl, [], fun tail => ?_, by simp, rfl⟩
          simp only [SyncHalf.resume, SyncHalf.on, List.nil_append]
          rw [readExact_unfold, if_pos h0]
          simp only [afterPacket, hd]
        · rename_i hd
          split at he
          all_goals
            rename_i hm
            simp only [Option.some.injEq, Prod.mk.injEq] at he
            obtain ⟨rfl, rfl, rfl⟩ := he
            refine ⟨rfl, [], fun tail => ?_, by simp, rfl⟩
            simp only [SyncHalf.resume, SyncHalf.on, List.nil_append]
            rw [readExact_unfold, if_pos h0]
            simp only [afterPacket, hd, hm]
      · rename_i h0
        split at he
        · simp at he
        · rename_i s1 r1 hr
          simp only [Option.some.injEq, Prod.mk.injEq] at he
          obtain ⟨rfl, rfl, rfl⟩ := he
          obtain ⟨ρ, h1, h2, h3⟩ := syncSess_script hN hr
          refine ⟨rfl, ρ, fun tail => ?_, h2, h3⟩
          simp only [SyncHalf.resume, SyncHalf.on]
          rw [readExact_unfold, if_neg h0, h1]
          rfl
        · simp at he
        · rename_i s1 r1 k hr
          split at he
          · simp at he
          · rename_i hk
            simp only [Option.some.injEq, Prod.mk.injEq] at he
            obtain ⟨rfl, rfl, rfl⟩ := he
            obtain ⟨ρ, h1, h2, h3⟩ := syncSess_script hN hr
            refine ⟨rfl, ρ, fun tail => ?_, h2, h3⟩
            simp only [SyncHalf.resume, SyncHalf.on]
            rw [readExact_unfold, if_neg h0, h1]
            simp only [hk, Bool.and_false, if_false, Bool.false_eq_true]
            rfl

/-- The asynchronous half over a script. -/
def AsyncHalf.on (h : AsyncHalf) (src : Source) : AsyncReader := ⟨h.cipher, ⟨h.sess.1, h.sess.2, src⟩, h.state⟩

theorem pollFill_of {s : (Bytes × Nat)} {src : Source} {buf : Bytes} {n : Nat} {z : AsyncSession × PollRead} (hn : n < buf.length)
    (h : AsyncSession.pollRead ⟨s.1, s.2, src⟩ (buf.length - n) = z) :
    pollFill ⟨s.1, s.2, src⟩ buf n = match (generalizing := false) z with
      | (s', .pending) => .pending s' buf n
      | (s', .ready (.err k)) => .err s' buf n k
      | (s', .ready (.ok [])) => .err s' buf n .connectionAborted
      | (s', .ready (.ok (b :: bs))) => pollFill s' (writeAt buf n (b :: bs)) (n + (b :: bs).length) := by
  subst h
  rw [pollFill_unfold, if_pos hn]
  rfl

/-- The asynchronous half. -/
def asyncRefines {N : PollConn σ} (hN : N.Keeps) :
    (asyncHalf N P prof).Refines (fun r : AsyncReader => r.poll P prof) where
  on := AsyncHalf.on
  resume h src := (h.on src).poll P prof
  Idle h := h.busy = false
  idle h _ src := rfl
  start_idle h hi := by simp [asyncHalf] at hi
  start_on h src := rfl
  start_resume h src := rfl
  goes h r h' r' he := by
    obtain ⟨c, s, st, busy⟩ := h
    simp only [asyncHalf, AsyncHalf.step] at he
    split at he
    · split at he
      · rename_i buf n
        split at he
        · rename_i hn
          split at he <;> simp only [Option.some.injEq, Prod.mk.injEq, reduceCtorEq, and_false] at he
          rename_i s1 r1 b bs hp
          obtain ⟨rfl, rfl, -⟩ := he
          obtain ⟨ρ, h1, h2, h3⟩ := sessPollN_script hN _ _ _ _ hp
          refine ⟨by simp, ρ, fun tail => ?_, h2, h3⟩
          simp only [AsyncHalf.on, AsyncReader.poll, pollFill_of hn (h1 tail)]
        · rename_i hn
          split at he <;> simp only [Option.some.injEq, Prod.mk.injEq, reduceCtorEq, and_false] at he
          rename_i c1 len hd
          obtain ⟨rfl, rfl, -⟩ := he
          refine ⟨by simp, [], fun tail => ?_, by simp, rfl⟩
          simp only [AsyncHalf.on, AsyncReader.poll, DecryptState.initReadingPayload, List.nil_append]
          rw [pollFill_unfold, if_neg hn]
          simp only [hd]
      · rename_i buf n
        split at he
        · rename_i hn
          split at he <;> simp only [Option.some.injEq, Prod.mk.injEq, reduceCtorEq, and_false] at he
          rename_i s1 r1 b bs hp
          obtain ⟨rfl, rfl, -⟩ := he
          obtain ⟨ρ, h1, h2, h3⟩ := sessPollN_script hN _ _ _ _ hp
          refine ⟨by simp, ρ, fun tail => ?_, h2, h3⟩
          simp only [AsyncHalf.on, AsyncReader.poll, AsyncReader.pollPayload, pollFill_of hn (h1 tail)]
        · split at he
          · simp at he
          · split at he
            · simp at he
            · simp at he
            · split at he <;> simp at he
    · simp at he
  ends h r h' r' x he := by
    obtain ⟨c, s, st, busy⟩ := h
    simp only [asyncHalf, AsyncHalf.step] at he
    split at he
    · split at he
      · rename_i buf n
        split at he
        · rename_i hn
          split at he <;> simp only [Option.some.injEq, Prod.mk.injEq, reduceCtorEq, and_false] at he
          all_goals
            rename_i hp
            obtain ⟨rfl, rfl, rfl⟩ := he
            obtain ⟨ρ, h1, h2, h3⟩ := sessPollN_script hN _ _ _ _ hp
            refine ⟨rfl, ρ, fun tail => ?_, h2, h3⟩
            simp only [AsyncHalf.on, AsyncReader.poll, pollFill_of hn (h1 tail)]
        · rename_i hn
          split at he <;> simp only [Option.some.injEq, Prod.mk.injEq, reduceCtorEq, and_false] at he
          all_goals
            rename_i hd
            obtain ⟨rfl, rfl, rfl⟩ := he
            refine ⟨rfl, [], fun tail => ?_, by simp, rfl⟩
            simp only [AsyncHalf.on, AsyncReader.poll, List.nil_append]
            rw [pollFill_unfold, if_neg hn]
            simp only [hd]
      · rename_i buf n
        split at he
        · rename_i hn
          split at he <;> simp only [Option.some.injEq, Prod.mk.injEq, reduceCtorEq, and_false] at he
          all_goals
            rename_i hp
            obtain ⟨rfl, rfl, rfl⟩ := he
            obtain ⟨ρ, h1, h2, h3⟩ := sessPollN_script hN _ _ _ _ hp
            refine ⟨rfl, ρ, fun tail => ?_, h2, h3⟩
            simp only [AsyncHalf.on, AsyncReader.poll, AsyncReader.pollPayload, pollFill_of hn (h1 tail)]
        · rename_i hn
          split at he
          · rename_i hd
            simp only [Option.some.injEq, Prod.mk.injEq] at he
            obtain ⟨rfl, rfl, rfl⟩ := he
            refine ⟨rfl, [], fun tail => ?_, by simp, rfl⟩
            simp only [AsyncHalf.on, AsyncReader.poll, AsyncReader.pollPayload, List.nil_append]
            rw [pollFill_unfold, if_neg hn]
            simp only [hd]
          · rename_i hd
            split at he
            · rename_i hd2
              simp only [Option.some.injEq, Prod.mk.injEq] at he
              obtain ⟨rfl, rfl, rfl⟩ := he
              refine ⟨rfl, [], fun tail => ?_, by simp, rfl⟩
              simp only [AsyncHalf.on, AsyncReader.poll, AsyncReader.pollPayload, List.nil_append]
              rw [pollFill_unfold, if_neg hn]
              simp only [hd, hd2]
            · rename_i hd2
              simp only [Option.some.injEq, Prod.mk.injEq] at he
              obtain ⟨rfl, rfl, rfl⟩ := he
              refine ⟨rfl, [], fun tail => ?_, by simp, rfl⟩
              simp only [AsyncHalf.on, AsyncReader.poll, AsyncReader.pollPayload, List.nil_append]
              rw [pollFill_unfold, if_neg hn]
              simp only [hd, hd2]
            · rename_i hd2
              split at he
              all_goals
                rename_i hm
                simp only [Option.some.injEq, Prod.mk.injEq] at he
                obtain ⟨rfl, rfl, rfl⟩ := he
                refine ⟨rfl, [], fun tail => ?_, by simp, rfl⟩
                simp only [AsyncHalf.on, AsyncReader.poll, AsyncReader.pollPayload, List.nil_append]
                rw [pollFill_unfold, if_neg hn]
                simp only [hd, hd2, hm]
    · simp at he

/-! ## Writing -/

/-- A step of a write with the transport's answer is that step with this answer in front of any script. -/
theorem WProc.step_asked {N : Conn σ} (f : Flavour) (c : OutboundCipher) {pc : WProc} {r r' : ConnRun σ} {k : Sink}
    (h : N.ask pc.asks r = some (r', k)) :
    ∃ t, (∀ tω tφ o, pc.step f P prof ⟨c, ⟨k.script ++ tω, k.flushes ++ tφ, o⟩⟩ =
        (⟨(pc.step f P prof ⟨c, k⟩).1.cipher, ⟨tω, tφ, o ++ t⟩⟩, (pc.step f P prof ⟨c, k⟩).2)) ∧
      r'.sent = r.sent ++ t ∧ r'.answers = r.answers := by
  cases pc with
  | start p =>
    simp only [WProc.asks, Conn.ask, Option.some.injEq, Prod.mk.injEq] at h
    obtain ⟨rfl, rfl⟩ := h
    refine ⟨[], fun tω tφ o => ?_, by simp, rfl⟩
    simp only [WProc.step, List.nil_append, List.append_nil]
    split
    · rename_i ct ty _ _
      cases c.encryptToVec P prof ct ty none with
      | mk c y => cases y <;> rfl
    · rfl
  | done x =>
    simp only [WProc.asks, Conn.ask, Option.some.injEq, Prod.mk.injEq] at h
    obtain ⟨rfl, rfl⟩ := h
    exact ⟨[], fun tω tφ o => by simp [WProc.step], by simp, rfl⟩
  | flushing =>
    simp only [WProc.asks, Conn.ask, Conn.flushRun] at h
    cases hf : N.flush r.net with
    | none => rw [hf] at h; simp at h
    | some y =>
    obtain ⟨s, y⟩ := y
    rw [hf] at h
    cases y with
    | ok u =>
      simp only [Option.some.injEq, Prod.mk.injEq] at h
      obtain ⟨rfl, rfl⟩ := h
      exact ⟨[], fun tω tφ o => by simp [WProc.step, Sink.flush], by simp, rfl⟩
    | error k =>
      simp only [Option.some.injEq, Prod.mk.injEq] at h
      obtain ⟨rfl, rfl⟩ := h
      exact ⟨[], fun tω tφ o => by simp [WProc.step, Sink.flush], by simp, rfl⟩
  | sending rest =>
    cases rest with
    | nil =>
      simp only [WProc.asks, Conn.ask, Option.some.injEq, Prod.mk.injEq] at h
      obtain ⟨rfl, rfl⟩ := h
      exact ⟨[], fun tω tφ o => by simp [WProc.step], by simp, rfl⟩
    | cons b bs =>
      simp only [WProc.asks, Conn.ask, Conn.writeRun] at h
      cases hw : N.write r.net (b :: bs) with
      | none => rw [hw] at h; simp at h
      | some y =>
      obtain ⟨s, y⟩ := y
      rw [hw] at h
      cases y with
      | ok n =>
        simp only [Option.some.injEq, Prod.mk.injEq] at h
        obtain ⟨rfl, rfl⟩ := h
        refine ⟨(b :: bs).take n, fun tω tφ o => ?_, rfl, rfl⟩
        cases n with
        | zero => simp [WProc.step]
        | succ n => simp [WProc.step]
      | error k =>
        simp only [Option.some.injEq, Prod.mk.injEq] at h
        obtain ⟨rfl, rfl⟩ := h
        refine ⟨[], fun tω tφ o => ?_, by simp, rfl⟩
        simp only [WProc.step, List.cons_append, List.nil_append, List.append_nil]
        split <;> rfl

variable {R : Rng}

/-- The same for a job of the shaped writer. -/
theorem JobPc.step_asked {N : Conn σ} (f : Flavour) (ws : WriterState R) {pc : JobPc} {r r' : ConnRun σ} {k : Sink}
    (h : N.ask pc.asks r = some (r', k)) :
    ∃ t, (∀ tω tφ o, pc.step f P prof (ws.over ⟨k.script ++ tω, k.flushes ++ tφ, o⟩) =
        ((pc.step f P prof (ws.over k)).1.over ⟨tω, tφ, o ++ t⟩, (pc.step f P prof (ws.over k)).2)) ∧
      r'.sent = r.sent ++ t ∧ r'.answers = r.answers := by
  obtain ⟨⟨c, snk⟩, sh, rc⟩ := ws
  have quiet : pc.asks = none → r' = r ∧ k = ⟨[], [], []⟩ := by
    intro hq
    rw [hq] at h
    simp only [Conn.ask, Option.some.injEq, Prod.mk.injEq] at h
    exact ⟨h.1.symm, h.2.symm⟩
  cases pc with
  | start j =>
    obtain ⟨rfl, rfl⟩ := quiet rfl
    refine ⟨[], fun tω tφ o => ?_, by simp, rfl⟩
    cases j with
    | write p =>
      simp only [JobPc.step, WriterState.over, List.nil_append, List.append_nil]
      cases sh.pad p with
      | none => rfl
      | some y =>
        obtain ⟨a, d, l⟩ := y
        cases d <;> rfl
    | cover =>
      simp only [JobPc.step, WriterState.over, List.nil_append, List.append_nil]
      obtain ⟨a, d, l⟩ := sh.decoy
      cases d <;> rfl
  | done x =>
    obtain ⟨rfl, rfl⟩ := quiet rfl
    exact ⟨[], fun tω tφ o => by simp [JobPc.step, WriterState.over], by simp, rfl⟩
  | padding w p =>
    by_cases hd : ∃ x, w = .done x
    · obtain ⟨x, rfl⟩ := hd
      obtain ⟨rfl, rfl⟩ := quiet rfl
      refine ⟨[], fun tω tφ o => ?_, by simp, rfl⟩
      rcases x with u | e | _ <;> simp [JobPc.step, WriterState.over]
    · have hs : ∀ ws : WriterState R, (JobPc.padding w p).step f P prof ws =
          ({ ws with writer := (w.step f P prof ws.writer).1 }, .padding (w.step f P prof ws.writer).2 p) := by
        intro ws
        cases w with
        | done x => exact absurd ⟨x, rfl⟩ hd
        | start q => rfl
        | sending l => rfl
        | flushing => rfl
      obtain ⟨t, h1, h2, h3⟩ := WProc.step_asked (P := P) (prof := prof) f c (pc := w) h
      refine ⟨t, fun tω tφ o => ?_, h2, h3⟩
      simp only [hs, WriterState.over, h1]
  | payload w =>
    by_cases hd : ∃ x, w = .done x
    · obtain ⟨x, rfl⟩ := hd
      obtain ⟨rfl, rfl⟩ := quiet rfl
      exact ⟨[], fun tω tφ o => by simp [JobPc.step, WriterState.over], by simp, rfl⟩
    · have hs : ∀ ws : WriterState R, (JobPc.payload w).step f P prof ws =
          ({ ws with writer := (w.step f P prof ws.writer).1 }, .payload (w.step f P prof ws.writer).2) := by
        intro ws
        cases w with
        | done x => exact absurd ⟨x, rfl⟩ hd
        | start q => rfl
        | sending l => rfl
        | flushing => rfl
      obtain ⟨t, h1, h2, h3⟩ := WProc.step_asked (P := P) (prof := prof) f c (pc := w) h
      refine ⟨t, fun tω tφ o => ?_, h2, h3⟩
      simp only [hs, WriterState.over, h1]
  | cover w =>
    by_cases hd : ∃ x, w = .done x
    · obtain ⟨x, rfl⟩ := hd
      obtain ⟨rfl, rfl⟩ := quiet rfl
      exact ⟨[], fun tω tφ o => by simp [JobPc.step, WriterState.over], by simp, rfl⟩
    · have hs : ∀ ws : WriterState R, (JobPc.cover w).step f P prof ws =
          ({ ws with writer := (w.step f P prof ws.writer).1 }, .cover (w.step f P prof ws.writer).2) := by
        intro ws
        cases w with
        | done x => exact absurd ⟨x, rfl⟩ hd
        | start q => rfl
        | sending l => rfl
        | flushing => rfl
      obtain ⟨t, h1, h2, h3⟩ := WProc.step_asked (P := P) (prof := prof) f c (pc := w) h
      refine ⟨t, fun tω tφ o => ?_, h2, h3⟩
      simp only [hs, WriterState.over, h1]

end Bip324
