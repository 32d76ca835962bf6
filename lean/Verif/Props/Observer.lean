import Verif.Props.Accounting

/-!
# C57: the traffic reveals lengths and moments only

Two runs that differ in the contents of the messages, in their types, in the keys and even in the primitives are
compared.  If the lengths agree, so does everything a network observer can see without breaking the cipher: how many
bytes are on the wire after every step.
-/

namespace Bip324

variable {P P' : Prims} {prof : Profile} {R : Rng}

/-! ## Alike: equal up to keys, contents and types -/

/-- Both panic when used, or their contents have the same length. -/
def Payload.Alike (p q : Payload) : Prop := p.contents.map List.length = q.contents.map List.length

/-- The same counters. -/
def OutboundCipher.Alike (a b : OutboundCipher) : Prop :=
  a.lengthCipher.blockCounter = b.lengthCipher.blockCounter ∧
  a.lengthCipher.chunkCounter = b.lengthCipher.chunkCounter ∧
  a.packetCipher.messageCounter = b.packetCipher.messageCounter

/-- The same transport, having taken the same number of bytes. -/
def Sink.Alike (a b : Sink) : Prop :=
  a.script = b.script ∧ a.flushes = b.flushes ∧ a.out.length = b.out.length

def Writer.Alike (a b : Writer) : Prop := a.cipher.Alike b.cipher ∧ a.writer.Alike b.writer

def WriterState.Alike (a b : WriterState R) : Prop :=
  a.writer.Alike b.writer ∧ a.shaper = b.shaper ∧ a.recorded = b.recorded

/-- Lists of the same length, related item by item. -/
inductive Paired {α : Type} (r : α → α → Prop) : List α → List α → Prop
  | nil : Paired r [] []
  | cons {a b : α} {as bs : List α} (h : r a b) (t : Paired r as bs) : Paired r (a :: as) (b :: bs)

theorem Paired.snoc {α : Type} {r : α → α → Prop} {as bs : List α} (h : Paired r as bs) {a b : α}
    (hab : r a b) : Paired r (as ++ [a]) (bs ++ [b]) := by
  induction h with
  | nil => exact .cons hab .nil
  | cons h _ ih => exact .cons h ih

theorem Payload.Alike.refl (p : Payload) : p.Alike p := rfl

theorem Payload.Alike.cases {p q : Payload} (h : p.Alike q) :
    (p.contents = none ∧ q.contents = none) ∨
    ∃ c d t u, p.contents = some c ∧ p.packetType = some t ∧ q.contents = some d ∧ q.packetType = some u ∧
      c.length = d.length := by
  unfold Payload.Alike at h
  rcases p with (_ | ⟨x, xs⟩) | ⟨x, xs⟩ <;> rcases q with (_ | ⟨y, ys⟩) | ⟨y, ys⟩ <;>
    simp [Payload.contents, Payload.packetType] at h ⊢ <;> exact h

/-! ## Encryption -/

theorem FSStream.crypt_alike {a b : FSStream} (h1 : a.blockCounter = b.blockCounter)
    (h2 : a.chunkCounter = b.chunkCounter) {x y : Bytes} (hl : x.length = y.length) :
    (a.crypt P prof x = none ∧ b.crypt P' prof y = none) ∨
    ∃ a' b' x' y', a.crypt P prof x = some (a', x') ∧ b.crypt P' prof y = some (b', y') ∧
      a'.blockCounter = b'.blockCounter ∧ a'.chunkCounter = b'.chunkCounter ∧
      x'.length = x.length ∧ y'.length = x.length := by
  have hx := fun a' x' => FSStream.crypt_length (P := P) (prof := prof) (c := a) (c' := a') (chunk := x) (x := x')
  have hy := fun a' x' => FSStream.crypt_length (P := P') (prof := prof) (c := b) (c' := a') (chunk := y) (x := x')
  revert hx hy
  unfold FSStream.crypt
  rw [h1, h2]
  cases uadd prof u32Mod b.blockCounter LENGTH_BYTES with
  | none => intro _ _; exact .inl ⟨rfl, rfl⟩
  | some n =>
    cases uadd prof u32Mod b.chunkCounter 1 with
    | none => intro _ _; exact .inl ⟨rfl, rfl⟩
    | some m =>
      intro hx hy
      refine .inr ?_
      by_cases hm : m % REKEY_INTERVAL = 0
      · simp only [hm, if_true] at hx hy ⊢
        exact ⟨_, _, _, _, rfl, rfl, rfl, rfl, hx _ _ rfl, (hy _ _ rfl).trans hl.symm⟩
      · simp only [hm, if_false] at hx hy ⊢
        exact ⟨_, _, _, _, rfl, rfl, rfl, rfl, hx _ _ rfl, (hy _ _ rfl).trans hl.symm⟩

/-- The cipher after a failed encryption. -/
theorem OutboundCipher.encryptToVec_rekey_none {c : OutboundCipher} (x : Bytes) (t : PacketType)
    (h : c.packetCipher.rekey P prof [] = none) : c.encryptToVec P prof x t none = (c, .panic) := by
  have hx : ¬ (zeros (OutboundCipher.encryptionBufferLen x.length)).length <
      OutboundCipher.encryptionBufferLen x.length := by simp [zeros]
  unfold OutboundCipher.encryptToVec OutboundCipher.encrypt
  rw [if_neg hx]
  simp only [Option.getD_none]
  rw [FSAead.encrypt_some, h]
  rfl

theorem OutboundCipher.encryptToVec_crypt_none {c : OutboundCipher} (x : Bytes) (t : PacketType) {pc : FSAead}
    (h : c.packetCipher.rekey P prof [] = some pc)
    (hl : c.lengthCipher.crypt P prof (leBytes 3 (x.length % u32Mod)) = none) :
    c.encryptToVec P prof x t none = ({ c with packetCipher := pc }, .panic) := by
  have hx : ¬ (zeros (OutboundCipher.encryptionBufferLen x.length)).length <
      OutboundCipher.encryptionBufferLen x.length := by simp [zeros]
  unfold OutboundCipher.encryptToVec OutboundCipher.encrypt
  rw [if_neg hx]
  simp only [Option.getD_none]
  rw [FSAead.encrypt_some, h]
  simp only [Option.map_some, NUM_LENGTH_BYTES, hl]

theorem FSAead.rekey_alike {a b : FSAead} (h : a.messageCounter = b.messageCounter) (aad aad' : Bytes) :
    (a.rekey P prof aad = none ∧ b.rekey P' prof aad' = none) ∨
    ∃ a' b', a.rekey P prof aad = some a' ∧ b.rekey P' prof aad' = some b' ∧
      a'.messageCounter = b'.messageCounter := by
  unfold FSAead.rekey
  rw [h]
  cases uadd prof u64Mod b.messageCounter 1 with
  | none => exact .inl ⟨rfl, rfl⟩
  | some n => exact .inr ⟨_, _, rfl, rfl, rfl⟩

theorem OutboundCipher.encryptToVec_alike (hP : Lawful P) (hP' : Lawful P') {a b : OutboundCipher}
    (h : a.Alike b) {x y : Bytes} (hl : x.length = y.length) (t u : PacketType) :
    ∃ a' b' r r', a.encryptToVec P prof x t none = (a', r) ∧ b.encryptToVec P' prof y u none = (b', r') ∧
      a'.Alike b' ∧ ((r = .panic ∧ r' = .panic) ∨
        ∃ v w, r = .ok v ∧ r' = .ok w ∧ v.length = w.length) := by
  obtain ⟨h1, h2, h3⟩ := h
  rcases FSAead.rekey_alike (P := P) (P' := P') (prof := prof) h3 [] [] with ⟨e1, e2⟩ | ⟨p1, p2, e1, e2, e3⟩
  · exact ⟨_, _, _, _, OutboundCipher.encryptToVec_rekey_none x t e1,
      OutboundCipher.encryptToVec_rekey_none y u e2, ⟨h1, h2, h3⟩, .inl ⟨rfl, rfl⟩⟩
  · rcases FSStream.crypt_alike (P := P) (P' := P') (prof := prof) h1 h2 (x := leBytes 3 (x.length % u32Mod))
      (y := leBytes 3 (y.length % u32Mod)) (by simp) with ⟨c1, c2⟩ | ⟨l1, l2, m1, m2, c1, c2, c3, c4, c5, c6⟩
    · exact ⟨_, _, _, _, OutboundCipher.encryptToVec_crypt_none x t e1 c1,
        OutboundCipher.encryptToVec_crypt_none y u e2 c2, ⟨h1, h2, e3⟩, .inl ⟨rfl, rfl⟩⟩
    · have g1 : a.packetCipher.encrypt P prof ((none : Option Bytes).getD []) (t.toByte :: x) =
          some (p1, (P.sealC a.packetCipher.key a.packetCipher.nonce [] (t.toByte :: x)).1,
            (P.sealC a.packetCipher.key a.packetCipher.nonce [] (t.toByte :: x)).2) := by
        rw [Option.getD_none, FSAead.encrypt_some, e1]; rfl
      have g2 : b.packetCipher.encrypt P' prof ((none : Option Bytes).getD []) (u.toByte :: y) =
          some (p2, (P'.sealC b.packetCipher.key b.packetCipher.nonce [] (u.toByte :: y)).1,
            (P'.sealC b.packetCipher.key b.packetCipher.nonce [] (u.toByte :: y)).2) := by
        rw [Option.getD_none, FSAead.encrypt_some, e2]; rfl
      refine ⟨_, _, _, _, OutboundCipher.encryptToVec_eq hP a x t none g1 c1,
        OutboundCipher.encryptToVec_eq hP' b y u none g2 c2, ⟨c3, c4, e3⟩, .inr ⟨_, _, rfl, rfl, ?_⟩⟩
      simp only [List.length_append, hP.seal_length, hP.tag_length, hP'.seal_length, hP'.tag_length,
        List.length_cons, c5, c6, hl]

/-! ## A write, step by step -/

def WProc.Alike : WProc → WProc → Prop
  | .start p, .start q => p.Alike q
  | .sending a, .sending b => a.length = b.length
  | .flushing, .flushing => True
  | .done r, .done r' => r = r'
  | _, _ => False

theorem Sink.flush_alike {a b : Sink} (h : a.Alike b) :
    ∃ a' b' r, a.flush = (a', r) ∧ b.flush = (b', r) ∧ a'.Alike b' := by
  obtain ⟨h1, h2, h3⟩ := h
  unfold Sink.flush
  rw [h2]
  cases hf : b.flushes with
  | nil => exact ⟨a, b, _, rfl, rfl, h1, h2, h3⟩
  | cons x fs =>
    cases x with
    | none => exact ⟨_, _, _, rfl, rfl, h1, rfl, h3⟩
    | some k => exact ⟨_, _, _, rfl, rfl, h1, rfl, h3⟩

theorem WProc.step_alike (hP : Lawful P) (hP' : Lawful P') (f : Flavour) {w w' : Writer} (hw : w.Alike w')
    {x y : WProc} (h : x.Alike y) :
    (x.step f P prof w).1.Alike (y.step f P' prof w').1 ∧
    (x.step f P prof w).2.Alike (y.step f P' prof w').2 := by
  obtain ⟨hc, hs⟩ := hw
  cases x with
  | start p =>
    cases y with
    | start q =>
      rcases Payload.Alike.cases h with ⟨e1, e2⟩ | ⟨c, d, t, u, e1, e2, e3, e4, e5⟩
      · simp only [WProc.step, e1, e2]
        exact ⟨⟨hc, hs⟩, rfl⟩
      · simp only [WProc.step, e1, e2, e3, e4]
        obtain ⟨a', b', r, r', g1, g2, g3, g4⟩ :=
          OutboundCipher.encryptToVec_alike (prof := prof) hP hP' hc e5 t u
        rw [g1, g2]
        rcases g4 with ⟨rfl, rfl⟩ | ⟨v, w2, rfl, rfl, g5⟩
        · exact ⟨⟨g3, hs⟩, rfl⟩
        · exact ⟨⟨g3, hs⟩, g5⟩
    | _ => exact h.elim
  | sending a =>
    cases y with
    | sending b =>
      have hl : a.length = b.length := h
      obtain ⟨h1, h2, h3⟩ := hs
      rcases a with _ | ⟨a0, as⟩ <;> rcases b with _ | ⟨b0, bs⟩
      · exact ⟨⟨hc, h1, h2, h3⟩, trivial⟩
      · simp at hl
      · simp at hl
      · simp only [WProc.step]
        rw [h1]
        cases hsc : w'.writer.script with
        | nil =>
          refine ⟨⟨hc, ?_⟩, rfl⟩
          refine ⟨?_, h2, ?_⟩
          · rfl
          · simp only [List.length_append, h3, hl]
        | cons e s =>
          cases e with
          | pending => exact ⟨⟨hc, rfl, h2, h3⟩, hl⟩
          | fail k =>
            by_cases hk : (f.retry && k == .interrupted) = true
            · simp only [hk, if_true]; exact ⟨⟨hc, rfl, h2, h3⟩, hl⟩
            · simp only [hk]; exact ⟨⟨hc, rfl, h2, h3⟩, rfl⟩
          | accept n =>
            cases n with
            | zero => exact ⟨⟨hc, rfl, h2, h3⟩, rfl⟩
            | succ n =>
              refine ⟨⟨hc, rfl, h2, ?_⟩, ?_⟩
              · simp only [List.length_append, List.length_take, h3, hl]
              · show (List.drop _ _).length = (List.drop _ _).length
                simp only [List.length_drop, hl]
    | _ => exact h.elim
  | flushing =>
    cases y with
    | flushing =>
      obtain ⟨a', b', r, g1, g2, g3⟩ := Sink.flush_alike hs
      simp only [WProc.step]
      rw [g1, g2]
      cases r with
      | ok v => exact ⟨⟨hc, g3⟩, rfl⟩
      | error k => exact ⟨⟨hc, g3⟩, rfl⟩
    | _ => exact h.elim
  | done r =>
    cases y with
    | done r' => exact ⟨⟨hc, hs⟩, h⟩
    | _ => exact h.elim

/-! ## A job -/

def Job.Alike : Job → Job → Prop
  | .write p, .write q => p.Alike q
  | .cover, .cover => True
  | _, _ => False

def JobPc.Alike : JobPc → JobPc → Prop
  | .start a, .start b => a.Alike b
  | .padding x p, .padding y q => x.Alike y ∧ p.Alike q
  | .payload x, .payload y => x.Alike y
  | .cover x, .cover y => x.Alike y
  | .done r, .done r' => r = r'
  | _, _ => False

theorem Shaper.pad_alike (s : Shaper R) {p q : Payload} (h : p.Alike q) : s.pad p = s.pad q := by
  unfold Shaper.pad
  rcases Payload.Alike.cases h with ⟨e1, e2⟩ | ⟨c, d, t, u, e1, -, e3, -, e5⟩
  · rw [e1, e2]
  · rw [e1, e3]; simp only [e5]

theorem WProc.alike_done {x y : WProc} (h : x.Alike y) :
    (∃ r, x = .done r ∧ y = .done r) ∨ ((∀ r, x ≠ .done r) ∧ ∀ r, y ≠ .done r) := by
  cases x <;> cases y <;> first | exact h.elim | (exact .inl ⟨_, rfl, by rw [show _ = _ from h]⟩) |
    (exact .inr ⟨fun _ h => WProc.noConfusion h, fun _ h => WProc.noConfusion h⟩)

theorem JobPc.step_alike (hP : Lawful P) (hP' : Lawful P') (f : Flavour) {ws ws' : WriterState R}
    (hw : ws.Alike ws') {x y : JobPc} (h : x.Alike y) :
    (x.step f P prof ws).1.Alike (y.step f P' prof ws').1 ∧
    (x.step f P prof ws).2.Alike (y.step f P' prof ws').2 := by
  obtain ⟨h1, h2, h3⟩ := hw
  cases x with
  | start a =>
    cases y with
    | start b =>
      cases a with
      | write p =>
        cases b with
        | write q =>
          have hp : ws.shaper.pad p = ws'.shaper.pad q := by rw [h2]; exact Shaper.pad_alike _ h
          simp only [JobPc.step]
          rw [hp]
          cases hq : ws'.shaper.pad q with
          | none => exact ⟨⟨h1, h2, h3⟩, rfl⟩
          | some v =>
            obtain ⟨sh, d, rec⟩ := v
            cases d with
            | none => exact ⟨⟨h1, rfl, by simp only [h3]⟩, h⟩
            | some d => exact ⟨⟨h1, rfl, by simp only [h3]⟩, Payload.Alike.refl d, h⟩
        | cover => exact h.elim
      | cover =>
        cases b with
        | write q => exact h.elim
        | cover =>
          simp only [JobPc.step]
          rw [h2]
          rcases hq : ws'.shaper.decoy with ⟨sh, d, rec⟩
          cases d with
          | none => exact ⟨⟨h1, rfl, by simp only [h3]⟩, rfl⟩
          | some d => exact ⟨⟨h1, rfl, by simp only [h3]⟩, Payload.Alike.refl d⟩
    | _ => exact h.elim
  | padding x p =>
    cases y with
    | padding y q =>
      obtain ⟨hx, hpq⟩ := h
      rcases WProc.alike_done hx with ⟨r, rfl, rfl⟩ | ⟨d1, d2⟩
      · cases r with
        | ok v => exact ⟨⟨h1, h2, h3⟩, hpq⟩
        | err e => exact ⟨⟨h1, h2, h3⟩, rfl⟩
        | panic => exact ⟨⟨h1, h2, h3⟩, rfl⟩
      · have g := WProc.step_alike (prof := prof) hP hP' f h1 hx
        have ex : (JobPc.padding x p).step f P prof ws =
            ({ ws with writer := (x.step f P prof ws.writer).1 }, .padding (x.step f P prof ws.writer).2 p) := by
          cases x <;> first | rfl | exact absurd rfl (d1 _)
        have ey : (JobPc.padding y q).step f P' prof ws' =
            ({ ws' with writer := (y.step f P' prof ws'.writer).1 },
              .padding (y.step f P' prof ws'.writer).2 q) := by
          cases y <;> first | rfl | exact absurd rfl (d2 _)
        rw [ex, ey]
        exact ⟨⟨g.1, h2, h3⟩, g.2, hpq⟩
    | _ => exact h.elim
  | payload x =>
    cases y with
    | payload y =>
      rcases WProc.alike_done h with ⟨r, rfl, rfl⟩ | ⟨d1, d2⟩
      · exact ⟨⟨h1, h2, h3⟩, rfl⟩
      · have g := WProc.step_alike (prof := prof) hP hP' f h1 h
        have ex : (JobPc.payload x).step f P prof ws =
            ({ ws with writer := (x.step f P prof ws.writer).1 }, .payload (x.step f P prof ws.writer).2) := by
          cases x <;> first | rfl | exact absurd rfl (d1 _)
        have ey : (JobPc.payload y).step f P' prof ws' =
            ({ ws' with writer := (y.step f P' prof ws'.writer).1 },
              .payload (y.step f P' prof ws'.writer).2) := by
          cases y <;> first | rfl | exact absurd rfl (d2 _)
        rw [ex, ey]
        exact ⟨⟨g.1, h2, h3⟩, g.2⟩
    | _ => exact h.elim
  | cover x =>
    cases y with
    | cover y =>
      rcases WProc.alike_done h with ⟨r, rfl, rfl⟩ | ⟨d1, d2⟩
      · exact ⟨⟨h1, h2, h3⟩, rfl⟩
      · have g := WProc.step_alike (prof := prof) hP hP' f h1 h
        have ex : (JobPc.cover x).step f P prof ws =
            ({ ws with writer := (x.step f P prof ws.writer).1 }, .cover (x.step f P prof ws.writer).2) := by
          cases x <;> first | rfl | exact absurd rfl (d1 _)
        have ey : (JobPc.cover y).step f P' prof ws' =
            ({ ws' with writer := (y.step f P' prof ws'.writer).1 },
              .cover (y.step f P' prof ws'.writer).2) := by
          cases y <;> first | rfl | exact absurd rfl (d2 _)
        rw [ex, ey]
        exact ⟨⟨g.1, h2, h3⟩, g.2⟩
    | _ => exact h.elim
  | done r =>
    cases y with
    | done r' => exact ⟨⟨h1, h2, h3⟩, h⟩
    | _ => exact h.elim

theorem JobPc.alike_done {x y : JobPc} (h : x.Alike y) :
    (∃ r, x = .done r ∧ y = .done r) ∨ ((∀ r, x ≠ .done r) ∧ ∀ r, y ≠ .done r) := by
  cases x <;> cases y <;> first | exact h.elim | (exact .inl ⟨_, rfl, by rw [show _ = _ from h]⟩) |
    (exact .inr ⟨fun _ h => JobPc.noConfusion h, fun _ h => JobPc.noConfusion h⟩)

/-! ## The system with its threads -/

def AppPc.Alike : AppPc → AppPc → Prop
  | .idle, .idle => True
  | .locking p, .locking q => p.Alike q
  | .writing p x, .writing q y => p.Alike q ∧ x.Alike y
  | .joining, .joining => True
  | .gone, .gone => True
  | _, _ => False

def BgPc.Alike : BgPc → BgPc → Prop
  | .covering x, .covering y => x.Alike y
  | .checking, .checking => True
  | .sleeping, .sleeping => True
  | .trying, .trying => True
  | .finished, .finished => True
  | .panicked, .panicked => True
  | _, _ => False

/-- Alike but for what was read. -/
structure ShapedSys.Alike (s s' : ShapedSys R) : Prop where
  ws : s.ws.Alike s'.ws
  owner : s.owner = s'.owner
  poisoned : s.poisoned = s'.poisoned
  shutdown : s.shutdown = s'.shutdown
  app : s.app.Alike s'.app
  bg : s.bg.Alike s'.bg
  returned : s.returned.map (·.2) = s'.returned.map (·.2)

/-- The same events, payloads up to `Alike`. -/
def SysLabel.Alike : SysLabel → SysLabel → Prop
  | .call p, .call q => p.Alike q
  | l, l' => l = l'

theorem ShapedSys.Alike.appStep (hP : Lawful P) (hP' : Lawful P') {s s' : ShapedSys R} (h : s.Alike s') :
    (s.appStep P prof).Alike (s'.appStep P' prof) := by
  have ha := h.app
  cases hx : s.app with
  | idle =>
    cases hy : s'.app <;> rw [hx, hy] at ha <;> first | exact ha.elim | skip
    simp only [ShapedSys.appStep, hx, hy]; exact h
  | locking p =>
    cases hy : s'.app <;> rw [hx, hy] at ha <;> first | exact ha.elim | skip
    rename_i q
    simp only [ShapedSys.appStep, hx, hy]
    rw [h.owner, h.poisoned]
    cases ho : s'.owner with
    | some t => exact h
    | none =>
      cases hp : s'.poisoned with
      | true =>
        simp only [if_true]
        exact { h with owner := rfl, app := trivial, poisoned := rfl
                       returned := by simp only [List.map_append, h.returned, List.map_cons, List.map_nil] }
      | false =>
        exact { h with owner := rfl, app := ⟨ha, ha⟩, poisoned := rfl }
  | writing p x =>
    cases hy : s'.app <;> rw [hx, hy] at ha <;> first | exact ha.elim | skip
    rename_i q y
    obtain ⟨hpq, hxy⟩ := ha
    rcases JobPc.alike_done hxy with ⟨r, rfl, rfl⟩ | ⟨d1, d2⟩
    · rw [ShapedSys.app_returns hx, ShapedSys.app_returns hy]
      exact { h with owner := rfl, app := trivial, poisoned := by simp only [h.poisoned]
                     returned := by simp only [List.map_append, h.returned, List.map_cons, List.map_nil] }
    · rw [ShapedSys.app_writes hx d1, ShapedSys.app_writes hy d2]
      have g := JobPc.step_alike (prof := prof) hP hP' .sync h.ws hxy
      exact { h with ws := g.1, app := ⟨hpq, g.2⟩ }
  | joining =>
    cases hy : s'.app <;> rw [hx, hy] at ha <;> first | exact ha.elim | skip
    simp only [ShapedSys.appStep, hx, hy]
    have hb : (s.bg = .finished ∨ s.bg = .panicked) ↔ (s'.bg = .finished ∨ s'.bg = .panicked) := by
      have := h.bg
      cases hu : s.bg <;> cases hv : s'.bg <;> rw [hu, hv] at this <;> first | exact this.elim | simp
    by_cases hc : s.bg = .finished ∨ s.bg = .panicked
    · rw [if_pos hc, if_pos (hb.mp hc)]
      exact { h with app := trivial }
    · rw [if_neg hc, if_neg (fun c => hc (hb.mpr c))]; exact h
  | gone =>
    cases hy : s'.app <;> rw [hx, hy] at ha <;> first | exact ha.elim | skip
    simp only [ShapedSys.appStep, hx, hy]; exact h

theorem ShapedSys.Alike.bgStep (hP : Lawful P) (hP' : Lawful P') {s s' : ShapedSys R} (h : s.Alike s') :
    (s.bgStep P prof).Alike (s'.bgStep P' prof) := by
  have hb := h.bg
  cases hx : s.bg with
  | checking =>
    cases hy : s'.bg <;> rw [hx, hy] at hb <;> first | exact hb.elim | skip
    simp only [ShapedSys.bgStep, hx, hy, h.shutdown]
    refine { h with bg := ?_, shutdown := rfl }
    cases s'.shutdown <;> trivial
  | sleeping =>
    cases hy : s'.bg <;> rw [hx, hy] at hb <;> first | exact hb.elim | skip
    simp only [ShapedSys.bgStep, hx, hy]
    exact { h with bg := trivial }
  | trying =>
    cases hy : s'.bg <;> rw [hx, hy] at hb <;> first | exact hb.elim | skip
    simp only [ShapedSys.bgStep, hx, hy]
    rw [h.owner, h.poisoned]
    cases ho : s'.owner with
    | some t => exact { h with bg := trivial, owner := rfl, poisoned := rfl }
    | none =>
      cases hp : s'.poisoned with
      | true => exact { h with bg := trivial, owner := rfl, poisoned := rfl }
      | false => exact { h with bg := trivial, owner := rfl, poisoned := rfl }
  | covering x =>
    cases hy : s'.bg <;> rw [hx, hy] at hb <;> first | exact hb.elim | skip
    rename_i y
    rcases JobPc.alike_done hb with ⟨r, rfl, rfl⟩ | ⟨d1, d2⟩
    · rw [ShapedSys.bg_unlocks hx, ShapedSys.bg_unlocks hy]
      refine { h with owner := rfl, poisoned := by simp only [h.poisoned], bg := ?_ }
      by_cases hr : r = .panic
      · simp only [hr, if_true]; trivial
      · simp only [hr, if_false]; trivial
    · rw [ShapedSys.bg_writes hx d1, ShapedSys.bg_writes hy d2]
      have g := JobPc.step_alike (prof := prof) hP hP' .sync h.ws hb
      exact { h with ws := g.1, bg := g.2 }
  | finished =>
    cases hy : s'.bg <;> rw [hx, hy] at hb <;> first | exact hb.elim | skip
    simp only [ShapedSys.bgStep, hx, hy]; exact h
  | panicked =>
    cases hy : s'.bg <;> rw [hx, hy] at hb <;> first | exact hb.elim | skip
    simp only [ShapedSys.bgStep, hx, hy]; exact h

theorem ShapedSys.Alike.step (hP : Lawful P) (hP' : Lawful P') {s s' : ShapedSys R} (h : s.Alike s')
    {l l' : SysLabel} (hl : l.Alike l') : (s.step P prof l).Alike (s'.step P' prof l') := by
  have ha := h.app
  have key : (∃ p q, l = .call p ∧ l' = .call q ∧ p.Alike q) ∨ ((∀ p, l ≠ .call p) ∧ l = l') := by
    cases l with
    | call p =>
      cases l' with
      | call q => exact .inl ⟨p, q, rfl, rfl, hl⟩
      | _ => exact SysLabel.noConfusion (show SysLabel.call p = _ from hl)
    | _ => exact .inr ⟨fun _ h => SysLabel.noConfusion h, by cases l' <;> exact hl⟩
  rcases key with ⟨p, q, rfl, rfl, hpq⟩ | ⟨hn, rfl⟩
  · cases hx : s.app <;> cases hy : s'.app <;> rw [hx, hy] at ha <;>
      first | exact ha.elim | (simp only [ShapedSys.step, hx, hy]; exact h) | skip
    simp only [ShapedSys.step, hx, hy]
    exact { h with app := hpq }
  · cases l with
    | call p => exact absurd rfl (hn p)
    | drop =>
      cases hx : s.app <;> cases hy : s'.app <;> rw [hx, hy] at ha <;>
        first | exact ha.elim | (simp only [ShapedSys.step, hx, hy]; exact h) | skip
      simp only [ShapedSys.step, hx, hy]
      exact { h with app := trivial, shutdown := rfl }
    | app => exact h.appStep hP hP'
    | bg => exact h.bgStep hP hP'
    | read => exact { h with }

/-! ## The system with its task -/

def WriteCommand.Alike (a b : WriteCommand) : Prop := a.payload.Alike b.payload ∧ a.resultTx = b.resultTx

def TaskPc.Alike : TaskPc → TaskPc → Prop
  | .select a b, .select c d => a = c ∧ b = d
  | .writing c x, .writing d y => c.Alike d ∧ x.Alike y
  | .covering x, .covering y => x.Alike y
  | .finished, .finished => True
  | .panicked, .panicked => True
  | _, _ => False

def CallerPc.Alike : CallerPc → CallerPc → Prop
  | .idle, .idle => True
  | .waiting p n, .waiting q m => p.Alike q ∧ n = m
  | .gone, .gone => True
  | _, _ => False

structure AsyncShapedSys.Alike (s s' : AsyncShapedSys R) : Prop where
  ws : s.ws.Alike s'.ws
  queue : Paired WriteCommand.Alike s.queue s'.queue
  closed : s.closed = s'.closed
  answers : s.answers = s'.answers
  task : s.task.Alike s'.task
  caller : s.caller.Alike s'.caller
  called : s.called.length = s'.called.length
  returned : s.returned.map (·.2) = s'.returned.map (·.2)

def AsyncLabel.Alike : AsyncLabel → AsyncLabel → Prop
  | .call p, .call q => p.Alike q
  | l, l' => l = l'

theorem TaskPc.Alike.ended {a b : TaskPc} (h : a.Alike b) : a.ended = b.ended := by
  cases a <;> cases b <;> first | exact h.elim | rfl

theorem AsyncShapedSys.Alike.taskStep (hP : Lawful P) (hP' : Lawful P') {s s' : AsyncShapedSys R}
    (h : s.Alike s') : (s.taskStep P prof).Alike (s'.taskStep P' prof) := by
  have ht := h.task
  cases hx : s.task with
  | writing c x =>
    cases hy : s'.task <;> rw [hx, hy] at ht <;> first | exact ht.elim | skip
    rename_i d y
    obtain ⟨hcd, hxy⟩ := ht
    rcases JobPc.alike_done hxy with ⟨r, rfl, rfl⟩ | ⟨d1, d2⟩
    · simp only [AsyncShapedSys.taskStep, hx, hy]
      by_cases hr : r = .panic
      · rw [if_pos hr, if_pos hr]; exact { h with task := trivial, queue := .nil }
      · rw [if_neg hr, if_neg hr]
        exact { h with task := ⟨rfl, rfl⟩, answers := by simp only [h.answers, hcd.2] }
    · have g := JobPc.step_alike (prof := prof) hP hP' .async h.ws hxy
      have ex : s.taskStep P prof = { s with
          ws := (x.step .async P prof s.ws).1, task := .writing c (x.step .async P prof s.ws).2 } := by
        unfold AsyncShapedSys.taskStep; rw [hx]
        cases x <;> first | rfl | exact absurd rfl (d1 _)
      have ey : s'.taskStep P' prof = { s' with
          ws := (y.step .async P' prof s'.ws).1, task := .writing d (y.step .async P' prof s'.ws).2 } := by
        unfold AsyncShapedSys.taskStep; rw [hy]
        cases y <;> first | rfl | exact absurd rfl (d2 _)
      rw [ex, ey]
      exact { h with ws := g.1, task := ⟨hcd, g.2⟩ }
  | covering x =>
    cases hy : s'.task <;> rw [hx, hy] at ht <;> first | exact ht.elim | skip
    rename_i y
    rcases JobPc.alike_done ht with ⟨r, rfl, rfl⟩ | ⟨d1, d2⟩
    · simp only [AsyncShapedSys.taskStep, hx, hy]
      by_cases hr : r = .panic
      · rw [if_pos hr, if_pos hr]; exact { h with task := trivial, queue := .nil }
      · rw [if_neg hr, if_neg hr]
        exact { h with task := ⟨rfl, rfl⟩ }
    · have g := JobPc.step_alike (prof := prof) hP hP' .async h.ws ht
      have ex : s.taskStep P prof = { s with
          ws := (x.step .async P prof s.ws).1, task := .covering (x.step .async P prof s.ws).2 } := by
        unfold AsyncShapedSys.taskStep; rw [hx]
        cases x <;> first | rfl | exact absurd rfl (d1 _)
      have ey : s'.taskStep P' prof = { s' with
          ws := (y.step .async P' prof s'.ws).1, task := .covering (y.step .async P' prof s'.ws).2 } := by
        unfold AsyncShapedSys.taskStep; rw [hy]
        cases y <;> first | rfl | exact absurd rfl (d2 _)
      rw [ex, ey]
      exact { h with ws := g.1, task := g.2 }
  | select a b =>
    cases hy : s'.task <;> rw [hx, hy] at ht <;> first | exact ht.elim | skip
    simp only [AsyncShapedSys.taskStep, hx, hy]; exact h
  | finished =>
    cases hy : s'.task <;> rw [hx, hy] at ht <;> first | exact ht.elim | skip
    simp only [AsyncShapedSys.taskStep, hx, hy]; exact h
  | panicked =>
    cases hy : s'.task <;> rw [hx, hy] at ht <;> first | exact ht.elim | skip
    simp only [AsyncShapedSys.taskStep, hx, hy]; exact h

theorem AsyncShapedSys.Alike.step (hP : Lawful P) (hP' : Lawful P') {s s' : AsyncShapedSys R}
    (h : s.Alike s') {l l' : AsyncLabel} (hl : l.Alike l') :
    (s.step P prof l).Alike (s'.step P' prof l') := by
  have hc := h.caller
  have ht := h.task
  have key : (∃ p q, l = .call p ∧ l' = .call q ∧ p.Alike q) ∨ ((∀ p, l ≠ .call p) ∧ l = l') := by
    cases l with
    | call p =>
      cases l' with
      | call q => exact .inl ⟨p, q, rfl, rfl, hl⟩
      | _ => exact AsyncLabel.noConfusion (show AsyncLabel.call p = _ from hl)
    | _ => exact .inr ⟨fun _ h => AsyncLabel.noConfusion h, by cases l' <;> exact hl⟩
  rcases key with ⟨p, q, rfl, rfl, hpq⟩ | ⟨hn, rfl⟩
  · cases hx : s.caller <;> cases hy : s'.caller <;> rw [hx, hy] at hc <;>
      first | exact hc.elim | (simp only [AsyncShapedSys.step, hx, hy]; exact h) | skip
    simp only [AsyncShapedSys.step, hx, hy]
    rw [ht.ended]
    cases s'.task.ended with
    | true =>
      simp only [if_true]
      exact { h with caller := trivial
                     returned := by simp only [List.map_append, h.returned, List.map_cons, List.map_nil] }
    | false =>
      exact { h with queue := h.queue.snoc ⟨hpq, h.called⟩, caller := ⟨hpq, h.called⟩
                     called := by
                      show (s.called ++ [p]).length = (s'.called ++ [q]).length
                      simp only [List.length_append, h.called, List.length_cons, List.length_nil] }
  · cases l with
    | call p => exact absurd rfl (hn p)
    | resume =>
      cases hx : s.caller <;> cases hy : s'.caller <;> rw [hx, hy] at hc <;>
        first | exact hc.elim | (simp only [AsyncShapedSys.step, hx, hy]; exact h) | skip
      rename_i p n q m
      obtain ⟨hpq, rfl⟩ := hc
      simp only [AsyncShapedSys.step, hx, hy]
      rw [h.answers, ht.ended]
      cases s'.answers.lookup n with
      | some r =>
        exact { h with caller := trivial
                       answers := rfl
                       returned := by
                        show (s.returned ++ [(p, r)]).map _ = (s'.returned ++ [(q, r)]).map _
                        simp only [List.map_append, h.returned, List.map_cons, List.map_nil] }
      | none =>
        cases s'.task.ended with
        | true =>
          simp only [if_true]
          exact { h with caller := trivial
                         answers := rfl
                         returned := by
                          simp only [List.map_append, h.returned, List.map_cons, List.map_nil] }
        | false => exact h
    | cancel =>
      cases hx : s.caller <;> cases hy : s'.caller <;> rw [hx, hy] at hc <;>
        first | exact hc.elim | (simp only [AsyncShapedSys.step, hx, hy]; exact h) | skip
      simp only [AsyncShapedSys.step, hx, hy]
      exact { h with caller := trivial }
    | drop =>
      cases hx : s.caller <;> cases hy : s'.caller <;> rw [hx, hy] at hc <;>
        first | exact hc.elim | (simp only [AsyncShapedSys.step, hx, hy]; exact h) | skip
      simp only [AsyncShapedSys.step, hx, hy]
      exact { h with caller := trivial, closed := rfl }
    | recv =>
      cases hx : s.task <;> cases hy : s'.task <;> rw [hx, hy] at ht <;>
        first | exact ht.elim | (simp only [AsyncShapedSys.step, hx, hy]; exact h) | skip
      rename_i a b c d
      obtain ⟨rfl, rfl⟩ := ht
      cases a with
      | true => simp only [AsyncShapedSys.step, hx, hy]; exact h
      | false =>
        simp only [AsyncShapedSys.step, hx, hy]
        have hq := h.queue
        cases hu : s.queue with
        | nil =>
          cases hv : s'.queue with
          | nil =>
            simp only [h.closed]
            cases hcl : s'.closed with
            | true =>
              simp only [if_true]
              exact { h with task := ⟨rfl, rfl⟩, closed := rfl, queue := .nil }
            | false => exact h
          | cons y ys => rw [hu, hv] at hq; cases hq
        | cons x xs =>
          cases hv : s'.queue with
          | nil => rw [hu, hv] at hq; cases hq
          | cons y ys =>
            rw [hu, hv] at hq
            cases hq with
            | cons h1 h2 => exact { h with queue := h2, task := ⟨h1, h1.1⟩ }
    | tick =>
      cases hx : s.task <;> cases hy : s'.task <;> rw [hx, hy] at ht <;>
        first | exact ht.elim | (simp only [AsyncShapedSys.step, hx, hy]; exact h) | skip
      rename_i a b c d
      obtain ⟨rfl, rfl⟩ := ht
      cases b with
      | true => simp only [AsyncShapedSys.step, hx, hy]; exact h
      | false =>
        simp only [AsyncShapedSys.step, hx, hy]
        exact { h with task := trivial }
    | otherwise =>
      cases hx : s.task <;> cases hy : s'.task <;> rw [hx, hy] at ht <;>
        first | exact ht.elim | (simp only [AsyncShapedSys.step, hx, hy]; exact h) | skip
      rename_i a b c d
      obtain ⟨rfl, rfl⟩ := ht
      cases a <;> cases b <;> first | (simp only [AsyncShapedSys.step, hx, hy]; exact h) | skip
      simp only [AsyncShapedSys.step, hx, hy]
      exact { h with task := trivial }
    | task => exact h.taskStep hP hP'
    | read => exact { h with }

/-! ## The plain writers -/

theorem writeAllGo_alike (retry : Bool) (s : List WEv) {x y : Bytes} (h : x.length = y.length) :
    (writeAllGo retry s x).1 = (writeAllGo retry s y).1 ∧
    (writeAllGo retry s x).2.1.length = (writeAllGo retry s y).2.1.length ∧
    (writeAllGo retry s x).2.2 = (writeAllGo retry s y).2.2 := by
  induction s generalizing x y with
  | nil =>
    rcases x with _ | ⟨a, as⟩ <;> rcases y with _ | ⟨b, bs⟩ <;> simp at h <;> simp [writeAllGo, h]
  | cons e s ih =>
    rcases x with _ | ⟨a, as⟩ <;> rcases y with _ | ⟨b, bs⟩
    · simp [writeAllGo]
    · simp at h
    · simp at h
    · cases e with
      | pending => simp only [writeAllGo]; exact ih h
      | fail k =>
        simp only [writeAllGo]
        by_cases hk : (retry && k == .interrupted) = true
        · simp only [hk, if_true]; exact ih h
        · simp [hk]
      | accept n =>
        cases n with
        | zero => simp [writeAllGo]
        | succ n =>
          have hd : ((a :: as).drop (n + 1)).length = ((b :: bs).drop (n + 1)).length := by
            simp only [List.length_drop, h]
          obtain ⟨i1, i2, i3⟩ := ih hd
          simp only [writeAllGo]
          refine ⟨i1, ?_, i3⟩
          simp only [List.length_append, List.length_take, h, i2]

theorem Sink.send_alike (retry : Bool) {a b : Sink} (h : a.Alike b) {x y : Bytes} (hl : x.length = y.length) :
    ∃ a' b' r, a.send retry x = (a', r) ∧ b.send retry y = (b', r) ∧ a'.Alike b' := by
  obtain ⟨h1, h2, h3⟩ := h
  obtain ⟨g1, g2, g3⟩ := writeAllGo_alike retry b.script hl
  unfold Sink.send Sink.writeAll
  rw [h1]
  rcases e1 : writeAllGo retry b.script x with ⟨s1, t1, r1⟩
  rcases e2 : writeAllGo retry b.script y with ⟨s2, t2, r2⟩
  rw [e1, e2] at g1 g2 g3
  simp only at g1 g2 g3
  subst g1 g3
  have ha : Sink.Alike ⟨s1, a.flushes, a.out ++ t1⟩ ⟨s1, b.flushes, b.out ++ t2⟩ :=
    ⟨rfl, h2, by simp only [List.length_append, h3, g2]⟩
  cases r1 with
  | error k => exact ⟨_, _, _, rfl, rfl, ha⟩
  | ok v => exact Sink.flush_alike ha

theorem Writer.write_alike (hP : Lawful P) (hP' : Lawful P') (f : Flavour) {w w' : Writer} (hw : w.Alike w')
    {p q : Payload} (h : p.Alike q) :
    ∃ v v' r, w.write f P prof p = (v, r) ∧ w'.write f P' prof q = (v', r) ∧ v.Alike v' := by
  obtain ⟨hc, hs⟩ := hw
  rcases Payload.Alike.cases h with ⟨e1, e2⟩ | ⟨c, d, t, u, e1, e2, e3, e4, e5⟩
  · have n1 : p.view = none := by unfold Payload.view; rw [e1]; cases p.packetType <;> rfl
    have n2 : q.view = none := by unfold Payload.view; rw [e2]; cases q.packetType <;> rfl
    exact ⟨w, w', .panic, Writer.write_none f w n1, Writer.write_none f w' n2, hc, hs⟩
  · have v1 : p.view = some (t, c) := Payload.view_some.2 ⟨e2, e1⟩
    have v2 : q.view = some (u, d) := Payload.view_some.2 ⟨e4, e3⟩
    obtain ⟨a', b', r, r', g1, g2, g3, g4⟩ :=
      OutboundCipher.encryptToVec_alike (prof := prof) hP hP' hc e5 t u
    rw [Writer.write_eq f w v1, Writer.write_eq f w' v2, g1, g2]
    rcases g4 with ⟨rfl, rfl⟩ | ⟨x, y, rfl, rfl, g5⟩
    · exact ⟨_, _, _, rfl, rfl, g3, hs⟩
    · obtain ⟨s1, s2, r, k1, k2, k3⟩ := Sink.send_alike f.retry hs g5
      simp only
      rw [k1, k2]
      cases r with
      | ok v => exact ⟨_, _, _, rfl, rfl, g3, k3⟩
      | error k => exact ⟨_, _, _, rfl, rfl, g3, k3⟩

/-! ## What is seen -/

/-- Writes, one after the other, whatever their outcomes: after each, the number of bytes on the wire and the
outcome. -/
def Writer.trace (f : Flavour) (P : Prims) (prof : Profile) :
    Writer → List Payload → List (Nat × Outcome ProtocolError Unit)
  | _, [] => []
  | w, p :: ps =>
    ((w.write f P prof p).1.writer.out.length, (w.write f P prof p).2) ::
      (w.write f P prof p).1.trace f P prof ps

/-- The number of bytes on the wire after every step of a schedule. -/
def ShapedSys.trace (P : Prims) (prof : Profile) : ShapedSys R → List SysLabel → List Nat
  | s, [] => [s.ws.writer.writer.out.length]
  | s, l :: ls => s.ws.writer.writer.out.length :: (s.step P prof l).trace P prof ls

/-- The number of bytes on the wire after every step of a schedule. -/
def AsyncShapedSys.trace (P : Prims) (prof : Profile) : AsyncShapedSys R → List AsyncLabel → List Nat
  | s, [] => [s.ws.writer.writer.out.length]
  | s, l :: ls => s.ws.writer.writer.out.length :: (s.step P prof l).trace P prof ls

/-- **C57** (plain writers).  Two writers of either API over the same transport, whose ciphers are at the same
counters: if they write payloads of the same lengths, then the number of bytes on the wire after every call and the
results of all calls agree.  Keys, contents and packet types may differ, and even the primitives. -/
theorem C57_plain (hP : Lawful P) (hP' : Lawful P') (f : Flavour) {w w' : Writer} (hw : w.Alike w')
    {ps qs : List Payload} (h : Paired Payload.Alike ps qs) :
    w.trace f P prof ps = w'.trace f P' prof qs := by
  induction h generalizing w w' with
  | nil => rfl
  | cons hab t ih =>
    obtain ⟨v, v', r, g1, g2, g3⟩ := Writer.write_alike (prof := prof) hP hP' f hw hab
    simp only [Writer.trace, g1, g2]
    rw [ih g3, g3.2.2.2]

/-- **C57** (threads).  The shaped protocol with its decoy thread: two sessions over the same transport with the same
configuration and random numbers, under the same schedule, in which payloads of the same lengths are written.  The
number of bytes on the wire agrees after every step, and so do the statistics and the results of the writes. -/
theorem C57_threads (hP : Lawful P) (hP' : Lawful P') {p p' : SyncProtocol} (hw : p.writer.Alike p'.writer)
    (sh : Shaper R) (rec : List Nat) {ls ls' : List SysLabel} (h : Paired SysLabel.Alike ls ls') :
    let s := ShapedSys.init p sh rec
    let s' := ShapedSys.init p' sh rec
    s.trace P prof ls = s'.trace P' prof ls' ∧
    (s.run P prof ls).ws.recorded = (s'.run P' prof ls').ws.recorded ∧
    (s.run P prof ls).ws.shaper = (s'.run P' prof ls').ws.shaper ∧
    (s.run P prof ls).returned.map (·.2) = (s'.run P' prof ls').returned.map (·.2) := by
  have h0 : (ShapedSys.init p sh rec).Alike (ShapedSys.init p' sh rec) :=
    ⟨⟨hw, rfl, rfl⟩, rfl, rfl, rfl, trivial, trivial, rfl⟩
  show (ShapedSys.init p sh rec).trace P prof ls = (ShapedSys.init p' sh rec).trace P' prof ls' ∧ _
  generalize ShapedSys.init p sh rec = s at h0 ⊢
  generalize ShapedSys.init p' sh rec = s' at h0 ⊢
  induction h generalizing s s' with
  | nil =>
    refine ⟨?_, h0.ws.2.2, h0.ws.2.1, h0.returned⟩
    simp only [ShapedSys.trace, h0.ws.1.2.2.2]
  | cons hab t ih =>
    have h1 := h0.step (prof := prof) hP hP' hab
    obtain ⟨i1, i2, i3, i4⟩ := ih _ _ h1
    refine ⟨?_, i2, i3, i4⟩
    simp only [ShapedSys.trace, i1, h0.ws.1.2.2.2]

/-- **C57** (task).  The same for the shaped protocol with its task. -/
theorem C57_task (hP : Lawful P) (hP' : Lawful P') {p p' : AsyncProtocol} (hw : p.writer.Alike p'.writer)
    (sh : Shaper R) (rec : List Nat) {ls ls' : List AsyncLabel} (h : Paired AsyncLabel.Alike ls ls') :
    let s := AsyncShapedSys.init p sh rec
    let s' := AsyncShapedSys.init p' sh rec
    s.trace P prof ls = s'.trace P' prof ls' ∧
    (s.run P prof ls).ws.recorded = (s'.run P' prof ls').ws.recorded ∧
    (s.run P prof ls).ws.shaper = (s'.run P' prof ls').ws.shaper ∧
    (s.run P prof ls).returned.map (·.2) = (s'.run P' prof ls').returned.map (·.2) := by
  have h0 : (AsyncShapedSys.init p sh rec).Alike (AsyncShapedSys.init p' sh rec) :=
    ⟨⟨hw, rfl, rfl⟩, .nil, rfl, rfl, ⟨rfl, rfl⟩, trivial, rfl, rfl⟩
  show (AsyncShapedSys.init p sh rec).trace P prof ls = (AsyncShapedSys.init p' sh rec).trace P' prof ls' ∧ _
  generalize AsyncShapedSys.init p sh rec = s at h0 ⊢
  generalize AsyncShapedSys.init p' sh rec = s' at h0 ⊢
  induction h generalizing s s' with
  | nil =>
    refine ⟨?_, h0.ws.2.2, h0.ws.2.1, h0.returned⟩
    simp only [AsyncShapedSys.trace, h0.ws.1.2.2.2]
  | cons hab t ih =>
    have h1 := h0.step (prof := prof) hP hP' hab
    obtain ⟨i1, i2, i3, i4⟩ := ih _ _ h1
    refine ⟨?_, i2, i3, i4⟩
    simp only [AsyncShapedSys.trace, i1, h0.ws.1.2.2.2]

/-- **C57** (and no less).  Without shaping the lengths are visible: the bytes on the wire grow by exactly the length
of the contents plus 20 with each successful write, so writes of payloads that are not pairwise equally long are told
apart. -/
theorem C57_plain_exact (hP : Lawful P) (f : Flavour) {w w' : Writer} {p : Payload}
    (h : w.write f P prof p = (w', .ok ())) :
    w'.writer.out.length = w.writer.out.length + p.size + 20 := by
  obtain ⟨t, c, pkt, hv, he, ho⟩ := write_ok_inv h
  obtain ⟨pc, ct, tag, lc, encLen, g1, g2, -, rfl⟩ := OutboundCipher.encryptToVec_ok_inv hP _ _ _ _ he
  have e1 := FSAead.encrypt_lengths hP g1
  have e2 := FSStream.crypt_length g2
  rw [leBytes_length] at e2
  have e3 : p.size = c.length := by
    unfold Payload.size; rw [(Payload.view_some.1 hv).2]; rfl
  rw [ho, e3]
  simp only [List.length_append, e1.1, e1.2, e2, List.length_cons]
  omega

theorem C57_plain_iff (hP : Lawful P) (hP' : Lawful P') (f : Flavour) {w w' : Writer}
    (hw : w.writer.out.length = w'.writer.out.length) {ps qs : List Payload}
    (hu : ∀ r ∈ w.trace f P prof ps, r.2 = .ok ()) (hu' : ∀ r ∈ w'.trace f P' prof qs, r.2 = .ok ()) :
    w.trace f P prof ps = w'.trace f P' prof qs ↔ ps.map Payload.size = qs.map Payload.size := by
  induction ps generalizing qs w w' with
  | nil => cases qs <;> simp [Writer.trace]
  | cons p ps ih =>
    cases qs with
    | nil => simp [Writer.trace]
    | cons q qs =>
      simp only [Writer.trace, List.mem_cons, forall_eq_or_imp] at hu hu'
      rcases e1 : w.write f P prof p with ⟨v, r⟩
      rcases e2 : w'.write f P' prof q with ⟨v', r'⟩
      rw [e1] at hu
      rw [e2] at hu'
      obtain ⟨rfl, hu2⟩ := hu
      obtain ⟨rfl, hu2'⟩ := hu'
      have l1 := C57_plain_exact hP f e1
      have l2 := C57_plain_exact hP' f e2
      simp only [Writer.trace, e1, e2, List.map_cons, List.cons.injEq, Prod.mk.injEq, and_true]
      constructor
      · rintro ⟨h1, h2⟩
        have h1' : v.writer.out.length = v'.writer.out.length := h1
        exact ⟨by omega, (ih h1' hu2 hu2').1 h2⟩
      · rintro ⟨h1, h2⟩
        have h1' : v.writer.out.length = v'.writer.out.length := by omega
        exact ⟨h1', (ih h1' hu2 hu2').2 h2⟩

/-! Concrete runs: another key, other contents, and a decoy in the place of a genuine packet. -/

/-- `sampleSys` under another key. -/
def otherProtocol : SyncProtocol :=
  ⟨⟨sampleIn, ⟨[], true, []⟩⟩, ⟨⟨⟨leBytes 32 5, 0, 0⟩, ⟨leBytes 32 6, 0⟩⟩,
    ⟨[.accept 5, .fail .interrupted, .accept 30], [], [8]⟩⟩⟩

/-- `sampleSchedule` with other payloads. -/
def otherSchedule : List SysLabel :=
  [.bg, .bg, .bg, .bg, .call (.decoy [9, 9, 9]), .app] ++ List.replicate 9 .bg ++
    List.replicate 5 .app ++ [.bg, .bg, .bg] ++ List.replicate 9 .app ++ List.replicate 9 .bg ++
    [.call (.decrypted [0, 4]), .app, .bg] ++ List.replicate 12 .app

theorem Paired.rfl' {α : Type} {r : α → α → Prop} (h : ∀ a, r a a) : ∀ l : List α, Paired r l l
  | [] => .nil
  | a :: l => .cons (h a) (Paired.rfl' h l)

theorem Paired.append {α : Type} {r : α → α → Prop} {a b c d : List α} (h : Paired r a b) (h' : Paired r c d) :
    Paired r (a ++ c) (b ++ d) := by
  induction h with
  | nil => exact h'
  | cons x _ ih => exact .cons x ih

theorem SysLabel.Alike.refl (l : SysLabel) : l.Alike l := by
  cases l <;> rfl

example : Paired SysLabel.Alike sampleSchedule otherSchedule ∧
    Writer.Alike ⟨sampleOut, ⟨[.accept 5, .fail .interrupted, .accept 30], [], [9]⟩⟩ otherProtocol.writer ∧
    sampleSys.trace toy .debug sampleSchedule =
      (ShapedSys.init (R := listRng) otherProtocol ⟨⟨.random, .random⟩, [99, 2, 3, 86, 1, 10, 4]⟩ []).trace toy .debug
        otherSchedule ∧
    (sampleSys.run toy .debug sampleSchedule).ws.writer.writer.out.length = 141 ∧
    (sampleSys.run toy .debug sampleSchedule).ws.writer.writer.out ≠
      ((ShapedSys.init (R := listRng) otherProtocol ⟨⟨.random, .random⟩, [99, 2, 3, 86, 1, 10, 4]⟩ []).run toy .debug
        otherSchedule).ws.writer.writer.out := by
  refine ⟨?_, ⟨⟨rfl, rfl, rfl⟩, rfl, rfl, rfl⟩, by decide +kernel, by decide +kernel, by decide +kernel⟩
  unfold sampleSchedule otherSchedule
  refine .append (.append (.append (.append (.append (.append (.append ?_ ?_) ?_) ?_) ?_) ?_) ?_) ?_
  all_goals first | exact Paired.rfl' SysLabel.Alike.refl _ | skip
  · exact .cons rfl (.cons rfl (.cons rfl (.cons rfl (.cons rfl (.cons rfl .nil)))))
  · exact .cons rfl (.cons rfl (.cons rfl .nil))

/-- The plain writers of both, with a short write and a flush that fails. -/
example :
    Paired Payload.Alike [.genuine [1, 2], .genuine [3], .decoy []] [.genuine [5, 6], .decoy [7], .decrypted [0]] ∧
    Writer.trace .sync toy .debug ⟨sampleOut, ⟨[.accept 5, .fail .interrupted], [none, some .brokenPipe], []⟩⟩
      [.genuine [1, 2], .genuine [3], .decoy []] =
        [(22, .ok ()), (43, .err (.fromIo .brokenPipe)), (63, .ok ())] ∧
    (∀ r ∈ Writer.trace .sync toy .debug ⟨sampleOut, ⟨[.accept 5], [], []⟩⟩ [.genuine [1, 2], .genuine [3]],
      r.2 = .ok ()) :=
  ⟨.cons rfl (.cons rfl (.cons rfl .nil)), by decide +kernel, by decide +kernel⟩

/-- The task: two queued writes, the first of which is cancelled, and a cover decoy in between. -/
example :
    AsyncShapedSys.trace toy .debug
      (AsyncShapedSys.init (R := listRng) ⟨⟨sampleIn, ⟨[], 0, []⟩, .initReadingLength⟩, ⟨sampleOut, ⟨[], [], []⟩⟩⟩
        ⟨⟨.random, .random⟩, [2, 99, 3, 1]⟩ [])
      ([.call (.genuine [1, 2]), .cancel, .call (.genuine [3]), .recv] ++ List.replicate 12 .task ++ [.tick] ++
        List.replicate 7 .task ++ [.recv] ++ List.replicate 12 .task ++ [.resume]) =
    AsyncShapedSys.trace toy .debug
      (AsyncShapedSys.init (R := listRng) ⟨⟨sampleIn, ⟨[], 0, []⟩, .initReadingLength⟩,
          ⟨otherProtocol.writer.cipher, ⟨[], [], []⟩⟩⟩ ⟨⟨.random, .random⟩, [2, 99, 3, 1]⟩ [])
      ([.call (.decoy [8, 8]), .cancel, .call (.genuine [9]), .recv] ++ List.replicate 12 .task ++ [.tick] ++
        List.replicate 7 .task ++ [.recv] ++ List.replicate 12 .task ++ [.resume]) := by
  decide +kernel

end Bip324
