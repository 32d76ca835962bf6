import Verif.Lemmas.AnyTransport

/-! # More fuel does not change an execution that ended -/

namespace Bip324

variable {P : Prims} {prof : Profile} {σ S : Type}

/-- A function of fuel whose results stay. -/
def Stays {α : Type} (F : Nat → Option α) : Prop := ∀ f a, F f = some a → F (f + 1) = some a

theorem Stays.le {α : Type} {F : Nat → Option α} (h : Stays F) {f f' : Nat} (hf : f ≤ f') {a : α} (ha : F f = some a) :
    F f' = some a := by
  induction hf with
  | refl => exact ha
  | step _ ih => exact h _ _ ih

/-- Two executions of the same code that end have the same result. -/
theorem Stays.unique {α : Type} {F : Nat → Option α} (h : Stays F) {f f' : Nat} {a a' : α} (ha : F f = some a)
    (ha' : F f' = some a') : a = a' := by
  have h1 := h.le (Nat.le_max_left f f') ha
  have h2 := h.le (Nat.le_max_right f f') ha'
  rw [h1] at h2
  exact Option.some.inj h2

theorem readExactN_stays (rd : S → Nat → Option (S × ReadRes)) (retry : Bool) (s : S) (need : Nat) (acc : Bytes) :
    Stays fun f => readExactN f rd retry s need acc := by
  intro f
  simp only
  induction f generalizing s need acc with
  | zero => intro a h; simp [readExactN] at h
  | succ f ih =>
    intro a h
    rw [readExactN] at h ⊢
    repeat' split at h
    all_goals grind

theorem writeAllN_stays (N : Conn σ) (retry : Bool) (r : ConnRun σ) (buf : Bytes) :
    Stays fun f => N.writeAll f retry r buf := by
  intro f
  simp only
  induction f generalizing r buf with
  | zero => intro a h; simp [Conn.writeAll] at h
  | succ f ih =>
    intro a h
    cases buf with
    | nil => simp only [Conn.writeAll] at h ⊢; exact h
    | cons b bs =>
      simp only [Conn.writeAll] at h
      generalize f + 1 = F at ih ⊢
      simp only [Conn.writeAll]
      repeat' split at h
      all_goals grind

theorem sendN_stays (N : Conn σ) (retry : Bool) (r : ConnRun σ) (buf : Bytes) : Stays fun f => N.send f retry r buf := by
  intro f a h
  simp only [Conn.send] at h ⊢
  have h1 := writeAllN_stays N retry r buf f
  simp only at h1
  repeat' split at h
  all_goals grind

theorem garbageLoopN_stays (N : Conn σ) (h : HsSentVersion) (buf : Bytes) (r : ConnRun σ) :
    Stays fun f => garbageLoopN f N h buf r := by
  intro f
  simp only
  induction f generalizing h buf r with
  | zero => intro a h; simp [garbageLoopN] at h
  | succ f ih =>
    intro a he
    rw [garbageLoopN] at he ⊢
    repeat' split at he
    all_goals grind

theorem versionLoopN_stays (A : ApiN) (N : Conn σ) (h : HsReceivedGarbage) (s : A.Sess × ConnRun σ) :
    Stays fun f => versionLoopN f A N P prof h s := by
  intro f
  simp only
  induction f generalizing h s with
  | zero => intro a h; simp [versionLoopN] at h
  | succ f ih =>
    intro a he
    have h1 : ∀ s n a, readExactN f (A.read N.readRun) A.retry s n [] = some a →
      readExactN (f + 1) (A.read N.readRun) A.retry s n [] = some a := fun s n a => readExactN_stays _ _ s n [] f a
    rw [versionLoopN] at he ⊢
    cases e1 : readExactN f (A.read N.readRun) A.retry s NUM_LENGTH_BYTES [] with
    | none => rw [e1] at he; simp at he
    | some z =>
    rw [h1 _ _ _ e1]
    rw [e1] at he
    obtain ⟨s1, z⟩ := z
    cases z with
    | error k => exact he
    | ok lb =>
    simp only at he ⊢
    cases e2 : h.decryptPacketLen P prof lb with
    | mk hh z =>
    rw [e2] at he
    cases z with
    | panic => exact he
    | err e => exact he
    | ok len =>
    simp only at he ⊢
    split at he
    · rename_i hc; rw [if_pos hc]; exact he
    · rename_i hc
      rw [if_neg hc]
      cases e3 : readExactN f (A.read N.readRun) A.retry s1 len [] with
      | none => rw [e3] at he; simp at he
      | some z =>
      rw [h1 _ _ _ e3]
      rw [e3] at he
      obtain ⟨s2, z⟩ := z
      cases z with
      | error k => exact he
      | ok pb =>
      simp only at he ⊢
      cases e4 : hh.receiveVersion P prof pb with
      | mk bb z =>
      rw [e4] at he
      rcases z with (v | v) | e | _
      · exact he
      · exact ih _ _ _ he
      · exact he
      · exact he

theorem handshakeWithInitializedN_stays (A : ApiN) (N : Conn σ) (h : HsInitialized) (g : Option Bytes)
    (d : Option (List Bytes)) (r : ConnRun σ) : Stays fun f => handshakeWithInitializedN f A N P prof h g d r := by
  intro f a he
  have h1 : ∀ r b a, N.send f A.retry r b = some a → N.send (f + 1) A.retry r b = some a := fun r b a => sendN_stays _ _ r b f a
  have h2 : ∀ r n a, readExactN f N.readRun A.retry r n [] = some a → readExactN (f + 1) N.readRun A.retry r n [] = some a :=
    fun r n a => readExactN_stays _ _ r n [] f a
  have h3 : ∀ h b r a, garbageLoopN f N h b r = some a → garbageLoopN (f + 1) N h b r = some a :=
    fun h b r a => garbageLoopN_stays N h b r f a
  have h4 : ∀ h s a, versionLoopN f A N P prof h s = some a → versionLoopN (f + 1) A N P prof h s = some a :=
    fun h s a => versionLoopN_stays A N h s f a
  simp only [handshakeWithInitializedN] at he ⊢
  repeat' split at he
  all_goals grind

theorem handshakeN_stays (A : ApiN) (N : Conn σ) (magic : Bytes) (role : Role) (rng : Bytes) (g : Option Bytes)
    (d : Option (List Bytes)) (r : ConnRun σ) : Stays fun f => handshakeN f A N P prof magic role rng g d r := by
  intro f a he
  simp only [handshakeN] at he ⊢
  split at he
  · exact he
  · exact he
  · exact handshakeWithInitializedN_stays A N _ g d r f a he

theorem syncReadN_stays (N : Conn σ) (c : InboundCipher) (s : syncN.Sess × ConnRun σ) :
    Stays fun f => syncReadN f N P prof c s := by
  intro f a he
  have h1 : ∀ s n a, readExactN f (syncN.read N.readRun) true s n [] = some a →
      readExactN (f + 1) (syncN.read N.readRun) true s n [] = some a := fun s n a => readExactN_stays _ _ s n [] f a
  simp only [syncReadN] at he ⊢
  repeat' split at he
  all_goals grind

theorem writeN_stays (fl : Flavour) (N : Conn σ) (c : OutboundCipher) (r : ConnRun σ) (p : Payload) :
    Stays fun f => writeN f fl N P prof c r p := by
  intro f a he
  have h1 : ∀ r b a, N.send f fl.retry r b = some a → N.send (f + 1) fl.retry r b = some a := fun r b a => sendN_stays _ _ r b f a
  simp only [writeN] at he ⊢
  repeat' split at he
  all_goals grind

theorem pollFillN_stays (N : PollConn σ) (s : (Bytes × Nat) × ConnRun σ) (buf : Bytes) (n : Nat) :
    Stays fun f => pollFillN f N s buf n := by
  intro f
  simp only
  induction f generalizing s buf n with
  | zero => intro a h; simp [pollFillN] at h
  | succ f ih =>
    intro a h
    rw [pollFillN] at h ⊢
    repeat' split at h
    all_goals grind

theorem pollPayloadN_stays (N : PollConn σ) (c : InboundCipher) (s : (Bytes × Nat) × ConnRun σ) (buf : Bytes) (n : Nat) :
    Stays fun f => AsyncReaderN.pollPayload f N P prof c s buf n := by
  intro f a h
  have h1 := pollFillN_stays N s buf n f
  simp only [AsyncReaderN.pollPayload] at h h1 ⊢
  repeat' split at h
  all_goals grind

theorem pollN_stays (N : PollConn σ) (r : AsyncReaderN σ) : Stays fun f => AsyncReaderN.poll f N P prof r := by
  intro f a h
  have h1 : ∀ s b n a, pollFillN f N s b n = some a → pollFillN (f + 1) N s b n = some a := fun s b n a => pollFillN_stays N s b n f a
  have h2 : ∀ c s b n a, AsyncReaderN.pollPayload f N P prof c s b n = some a →
      AsyncReaderN.pollPayload (f + 1) N P prof c s b n = some a := fun c s b n a => pollPayloadN_stays N c s b n f a
  simp only [AsyncReaderN.poll] at h ⊢
  repeat' split at h
  all_goals grind

end Bip324
