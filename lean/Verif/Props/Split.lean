import Verif.Props.Session

/-!
# C42: splitting does not change behaviour

Operations are applied to the whole session for a while, then the session is split and operations are
applied to the two halves, in any order.  The reference is one direction alone, without any split.
-/

namespace Bip324

variable {P : Prims} {prof : Profile}

/-! ## Two independent machines -/

/-- Runs one machine; all results. -/
def runOne {σ α β : Type} (f : σ → α → σ × β) : σ → List α → σ × List β
  | s, [] => (s, [])
  | s, a :: as => ((runOne f (f s a).1 as).1, (f s a).2 :: (runOne f (f s a).1 as).2)

/-- The operations (or results) of the first kind, in order. -/
def lefts {α β : Type} : List (α ⊕ β) → List α
  | [] => []
  | .inl a :: xs => a :: lefts xs
  | .inr _ :: xs => lefts xs

/-- The operations (or results) of the second kind, in order. -/
def rights {α β : Type} : List (α ⊕ β) → List β
  | [] => []
  | .inl _ :: xs => rights xs
  | .inr b :: xs => b :: rights xs

/-- One operation on one of two halves. -/
def onHalves {σ τ α β γ δ : Type} (f : σ → α → σ × β) (g : τ → γ → τ × δ) (s : σ × τ) :
    α ⊕ γ → (σ × τ) × (β ⊕ δ)
  | .inl a => (((f s.1 a).1, s.2), .inl (f s.1 a).2)
  | .inr c => ((s.1, (g s.2 c).1), .inr (g s.2 c).2)

theorem lefts_append {α β : Type} (xs ys : List (α ⊕ β)) : lefts (xs ++ ys) = lefts xs ++ lefts ys := by
  induction xs with
  | nil => rfl
  | cons x xs ih => cases x <;> simp [lefts, ih]

theorem rights_append {α β : Type} (xs ys : List (α ⊕ β)) :
    rights (xs ++ ys) = rights xs ++ rights ys := by
  induction xs with
  | nil => rfl
  | cons x xs ih => cases x <;> simp [rights, ih]

theorem runOne_append {σ α β : Type} (f : σ → α → σ × β) (s : σ) (as bs : List α) :
    runOne f s (as ++ bs) = ((runOne f (runOne f s as).1 bs).1,
      (runOne f s as).2 ++ (runOne f (runOne f s as).1 bs).2) := by
  induction as generalizing s with
  | nil => simp [runOne]
  | cons a as ih => simp [runOne, ih]

/-- Whatever the interleaving, each half does what it does alone. -/
theorem halves_alone {σ τ α β γ δ : Type} (f : σ → α → σ × β) (g : τ → γ → τ × δ) (s : σ × τ)
    (ops : List (α ⊕ γ)) :
    (runOne (onHalves f g) s ops).1 = ((runOne f s.1 (lefts ops)).1, (runOne g s.2 (rights ops)).1) ∧
    lefts (runOne (onHalves f g) s ops).2 = (runOne f s.1 (lefts ops)).2 ∧
    rights (runOne (onHalves f g) s ops).2 = (runOne g s.2 (rights ops)).2 := by
  induction ops generalizing s with
  | nil => exact ⟨rfl, rfl, rfl⟩
  | cons op ops ih =>
    cases op with
    | inl a =>
      obtain ⟨h1, h2, h3⟩ := ih ((f s.1 a).1, s.2)
      exact ⟨h1, by simp only [runOne, onHalves, lefts, h2], by simp only [runOne, onHalves, rights, h3]⟩
    | inr c =>
      obtain ⟨h1, h2, h3⟩ := ih (s.1, (g s.2 c).1)
      exact ⟨h1, by simp only [runOne, onHalves, lefts, h2], by simp only [runOne, onHalves, rights, h3]⟩

/-- A whole that does on each operation what its halves would do. -/
theorem whole_halves {ω σ τ α β γ δ : Type} (f : σ → α → σ × β) (g : τ → γ → τ × δ)
    (split : ω → σ × τ) (step : ω → α ⊕ γ → ω × (β ⊕ δ))
    (h : ∀ w op, split (step w op).1 = (onHalves f g (split w) op).1 ∧
      (step w op).2 = (onHalves f g (split w) op).2) (w : ω) (ops : List (α ⊕ γ)) :
    split (runOne step w ops).1 = (runOne (onHalves f g) (split w) ops).1 ∧
      (runOne step w ops).2 = (runOne (onHalves f g) (split w) ops).2 := by
  induction ops generalizing w with
  | nil => exact ⟨rfl, rfl⟩
  | cons op ops ih =>
    obtain ⟨h1, h2⟩ := h w op
    obtain ⟨i1, i2⟩ := ih (step w op).1
    rw [h1] at i1 i2
    exact ⟨i1, by simp only [runOne, h2, i2]⟩

theorem split_anytime {ω σ τ α β γ δ : Type} (f : σ → α → σ × β) (g : τ → γ → τ × δ)
    (split : ω → σ × τ) (step : ω → α ⊕ γ → ω × (β ⊕ δ))
    (h : ∀ w op, split (step w op).1 = (onHalves f g (split w) op).1 ∧
      (step w op).2 = (onHalves f g (split w) op).2) (w : ω) (before after : List (α ⊕ γ)) :
    let x := runOne step w before
    let y := runOne (onHalves f g) (split x.1) after
    let a := runOne f (split w).1 (lefts (before ++ after))
    let b := runOne g (split w).2 (rights (before ++ after))
    y.1 = (a.1, b.1) ∧ lefts (x.2 ++ y.2) = a.2 ∧ rights (x.2 ++ y.2) = b.2 := by
  intro x y a b
  obtain ⟨h1, h2⟩ := whole_halves f g split step h w before
  have hy : y = runOne (onHalves f g) (runOne (onHalves f g) (split w) before).1 after := by
    show runOne (onHalves f g) (split (runOne step w before).1) after = _
    rw [h1]
  have hall := runOne_append (onHalves f g) (split w) before after
  obtain ⟨e1, e2, e3⟩ := halves_alone f g (split w) (before ++ after)
  have hx : x.2 = (runOne (onHalves f g) (split w) before).2 := h2
  rw [hall] at e1 e2 e3
  rw [hx, hy]
  exact ⟨e1, e2, e3⟩

/-! ## The cipher session -/

/-- Calls on the inbound half. -/
inductive InOp where
  | len (lengthBytes : Bytes)
  | inPlace (ct : Bytes) (aad : Option Bytes)
  | decrypt (ct buf : Bytes) (aad : Option Bytes)
  | toVec (ct : Bytes) (aad : Option Bytes)

/-- Their results (with the caller's buffers after the call). -/
inductive InRes where
  | len (r : Outcome Error Nat)
  | inPlace (buf : Bytes) (r : Outcome Error (PacketType × Bytes))
  | decrypt (buf : Bytes) (r : Outcome Error PacketType)
  | toVec (r : Outcome Error (PacketType × Bytes))
deriving Repr, DecidableEq

/-- Calls on the outbound half. -/
inductive OutOp where
  | encrypt (pt buf : Bytes) (ty : PacketType) (aad : Option Bytes)
  | toVec (pt : Bytes) (ty : PacketType) (aad : Option Bytes)

/-- Their results. -/
inductive OutRes where
  | encrypt (buf : Bytes) (r : Outcome Error Unit)
  | toVec (r : Outcome Error Bytes)
deriving Repr, DecidableEq

def InboundCipher.exec (P : Prims) (prof : Profile) (c : InboundCipher) : InOp → InboundCipher × InRes
  | .len b => ((c.decryptPacketLen P prof b).1, .len (c.decryptPacketLen P prof b).2)
  | .inPlace ct aad => ((c.decryptInPlace P prof ct aad).1,
      .inPlace (c.decryptInPlace P prof ct aad).2.1 (c.decryptInPlace P prof ct aad).2.2)
  | .decrypt ct buf aad => ((c.decrypt P prof ct buf aad).1,
      .decrypt (c.decrypt P prof ct buf aad).2.1 (c.decrypt P prof ct buf aad).2.2)
  | .toVec ct aad => ((c.decryptToVec P prof ct aad).1, .toVec (c.decryptToVec P prof ct aad).2)

def OutboundCipher.exec (P : Prims) (prof : Profile) (c : OutboundCipher) :
    OutOp → OutboundCipher × OutRes
  | .encrypt pt buf ty aad => ((c.encrypt P prof pt buf ty aad).1,
      .encrypt (c.encrypt P prof pt buf ty aad).2.1 (c.encrypt P prof pt buf ty aad).2.2)
  | .toVec pt ty aad => ((c.encryptToVec P prof pt ty aad).1, .toVec (c.encryptToVec P prof pt ty aad).2)

/-- lib.rs:751-759 `CipherSession::inbound` and `outbound` (mutable access to one half). -/
def CipherSession.exec (P : Prims) (prof : Profile) (s : CipherSession) :
    InOp ⊕ OutOp → CipherSession × (InRes ⊕ OutRes)
  | .inl op => ({ s with inbound := (s.inbound.exec P prof op).1 }, .inl (s.inbound.exec P prof op).2)
  | .inr op => ({ s with outbound := (s.outbound.exec P prof op).1 }, .inr (s.outbound.exec P prof op).2)

/-- C42 for `CipherSession`: any calls before the split, then any interleaving of calls on the two
halves; each direction gives the results, and reaches the state, it has when it is used alone and never
split. -/
theorem C42_cipher_session (s : CipherSession) (before after : List (InOp ⊕ OutOp)) :
    let x := runOne (CipherSession.exec P prof) s before
    let y := runOne (onHalves (InboundCipher.exec P prof) (OutboundCipher.exec P prof)) x.1.intoSplit after
    let a := runOne (InboundCipher.exec P prof) s.inbound (lefts (before ++ after))
    let b := runOne (OutboundCipher.exec P prof) s.outbound (rights (before ++ after))
    y.1 = (a.1, b.1) ∧ lefts (x.2 ++ y.2) = a.2 ∧ rights (x.2 ++ y.2) = b.2 :=
  split_anytime _ _ CipherSession.intoSplit (CipherSession.exec P prof)
    (by intro w op; cases op <;> exact ⟨rfl, rfl⟩) s before after

/-! ## The protocols -/

/-- `read` or `write` on the synchronous protocol. -/
def SyncProtocol.exec (P : Prims) (prof : Profile) (p : SyncProtocol) :
    Unit ⊕ Payload → SyncProtocol × (Outcome ProtocolError Payload ⊕ Outcome ProtocolError Unit)
  | .inl _ => ((p.read P prof).1, .inl (p.read P prof).2)
  | .inr x => ((p.write P prof x).1, .inr (p.write P prof x).2)

/-- C42 for the synchronous `Protocol`. -/
theorem C42_sync_protocol (p : SyncProtocol) (before after : List (Unit ⊕ Payload)) :
    let x := runOne (SyncProtocol.exec P prof) p before
    let y := runOne (onHalves (fun r _ => SyncReader.read P prof r) (Writer.writeSync P prof))
      x.1.intoSplit after
    let a := runOne (fun r _ => SyncReader.read P prof r) p.reader (lefts (before ++ after))
    let b := runOne (Writer.writeSync P prof) p.writer (rights (before ++ after))
    y.1 = (a.1, b.1) ∧ lefts (x.2 ++ y.2) = a.2 ∧ rights (x.2 ++ y.2) = b.2 :=
  split_anytime _ _ SyncProtocol.intoSplit (SyncProtocol.exec P prof)
    (by intro w op; cases op <;> exact ⟨rfl, rfl⟩) p before after

/-- A poll of `read` or a completed `write` on the asynchronous protocol. -/
def AsyncProtocol.exec (P : Prims) (prof : Profile) (p : AsyncProtocol) :
    Unit ⊕ Payload → AsyncProtocol × (PollResult ⊕ Outcome ProtocolError Unit)
  | .inl _ => ((p.pollRead P prof).1, .inl (p.pollRead P prof).2)
  | .inr x => ((p.write P prof x).1, .inr (p.write P prof x).2)

/-- C42 for the asynchronous `Protocol`; the split may come in the middle of a packet (between two
polls of `read`). -/
theorem C42_async_protocol (p : AsyncProtocol) (before after : List (Unit ⊕ Payload)) :
    let x := runOne (AsyncProtocol.exec P prof) p before
    let y := runOne (onHalves (fun r _ => AsyncReader.poll P prof r) (Writer.writeAsync P prof))
      x.1.intoSplit after
    let a := runOne (fun r _ => AsyncReader.poll P prof r) p.reader (lefts (before ++ after))
    let b := runOne (Writer.writeAsync P prof) p.writer (rights (before ++ after))
    y.1 = (a.1, b.1) ∧ lefts (x.2 ++ y.2) = a.2 ∧ rights (x.2 ++ y.2) = b.2 :=
  split_anytime _ _ AsyncProtocol.intoSplit (AsyncProtocol.exec P prof)
    (by intro w op; cases op <;> exact ⟨rfl, rfl⟩) p before after

/-- Beside C42: reads and writes mixed, split in the middle of an incoming packet. -/
example :
    let pkt := match (sampleOut.encryptToVec toy .debug [1, 2] .genuine none).2 with | .ok b => b | _ => []
    let p : AsyncProtocol := ⟨⟨sampleIn, ⟨[], 0, [.data (pkt.take 9), .pending, .data (pkt.drop 9)]⟩,
      .initReadingLength⟩, ⟨sampleOut, ⟨[], [], []⟩⟩⟩
    let x := runOne (AsyncProtocol.exec toy .debug) p [.inr (.genuine [5]), .inl ()]
    let y := runOne (onHalves (fun r _ => AsyncReader.poll toy .debug r) (Writer.writeAsync toy .debug))
      x.1.intoSplit [.inr (.decoy []), .inl ()]
    x.2 = [.inr (.ok ()), .inl .pending] ∧ y.1.2.writer.out.length = 41 ∧
    y.2 = [.inr (.ok ()), .inl (.ready (.ok (.decrypted [0, 1, 2])))] := by
  decide +kernel

end Bip324
