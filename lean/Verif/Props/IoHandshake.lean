import Verif.Lemmas.IoHandshake

/-!
# Properties of the I/O handshake: C25, C26, C27, C33, C44

Everything is stated for both APIs: `A` is `syncApi` (`protocol/src/io.rs`) or `asyncApi`
(`protocol/src/futures.rs`).  `Streams false src bs tail` says that the transport delivers exactly
the bytes `bs`, in any segmentation and with any `Pending`s, and then does `tail`; `EndsWith _ tail
k` says that `tail` is the end of the stream (`k = UnexpectedEof`) or an I/O error of kind `k`.
-/

namespace Bip324

variable {P : Prims} {prof : Profile}

theorem api_abs {A : Api} (hA : A = syncApi ∨ A = asyncApi) : Nonempty A.Abs := by
  rcases hA with rfl | rfl
  · exact ⟨syncAbs⟩
  · exact ⟨asyncAbs⟩

/-- A sequence of `read_exact` calls on a session reader; stops at the first error. -/
def readMany (A : Api) : A.Session → List Nat → List (Except ErrorKind Bytes)
  | _, [] => []
  | s, n :: ns =>
    match A.reader.readExact A.retry s n with
    | (s', .ok b) => .ok b :: readMany A s' ns
    | (_, .error k) => [.error k]

/-- `bs` cut into pieces of the given sizes. -/
def pieces : Bytes → List Nat → List Bytes
  | _, [] => []
  | bs, n :: ns => bs.take n :: pieces (bs.drop n) ns

/-- Exactly the bytes `rest` can be read from the session reader, in order and once, however the
reads are cut; reading beyond them is an error of kind `k`. -/
def Readable (A : Api) (s : A.Session) (rest : Bytes) (k : ErrorKind) : Prop :=
  (∀ ns, ns.sum ≤ rest.length → readMany A s ns = (pieces rest ns).map .ok) ∧
    ∀ ns n, ns.sum ≤ rest.length → rest.length < ns.sum + n →
      readMany A s (ns ++ [n]) = (pieces rest ns).map .ok ++ [.error k]

theorem readable_of_streams {A : Api} (B : A.Abs) {tail : Source} {k : ErrorKind}
    (hend : EndsWith A.retry tail k) {s : A.Session} {rest : Bytes}
    (hs : SessStreams B s rest tail) : Readable A s rest k := by
  constructor
  · intro ns
    induction ns generalizing s rest with
    | nil => intro _; rfl
    | cons n ns ih =>
      intro hle
      simp only [List.sum_cons] at hle
      obtain ⟨s', e, st⟩ := (sess_readExact B hend hs n).1 (by omega)
      simp only [readMany, e, pieces, List.map_cons]
      rw [ih st (by simp; omega)]
  · intro ns
    induction ns generalizing s rest with
    | nil =>
      intro n _ hlt
      simp only [List.sum_nil, Nat.zero_add] at hlt
      obtain ⟨s', e⟩ := (sess_readExact B hend hs n).2 hlt
      simp [readMany, e, pieces]
    | cons m ns ih =>
      intro n hle hlt
      simp only [List.sum_cons] at hle hlt
      obtain ⟨s', e, st⟩ := (sess_readExact B hend hs m).1 (by omega)
      simp only [List.cons_append, readMany, e, pieces, List.map_cons]
      rw [ih st n (by simp; omega) (by simp; omega)]

/-! ## C25: segmentation independence -/

/-- Two handshake results are the same: same error, or same ciphers and the same bytes left. -/
def SameResult (A : Api) (k : ErrorKind)
    (x y : Outcome ProtocolError (InboundCipher × OutboundCipher × A.Session)) : Prop :=
  (∃ e, x = .err e ∧ y = .err e) ∨ (x = .panic ∧ y = .panic) ∨
    ∃ i o s s' rest, x = .ok (i, o, s) ∧ y = .ok (i, o, s') ∧ Readable A s rest k ∧ Readable A s' rest k

/-- C25: the handshake sends the same bytes and returns the same result for any two segmentations of
the same stream. -/
theorem C25_segmentation {A : Api} (hA : A = syncApi ∨ A = asyncApi) (hP : Lawful P)
    (magic : Bytes) (role : Role) (rng : Bytes) (garbage : Option Bytes)
    (decoys : Option (List Bytes)) (bs : Bytes) {r1 r2 tail1 tail2 : Source} {k : ErrorKind}
    (h1 : Streams false r1 bs tail1) (h2 : Streams false r2 bs tail2)
    (e1 : EndsWith A.retry tail1 k) (e2 : EndsWith A.retry tail2 k) (w : Sink) :
    (handshake A P prof magic role rng garbage decoys r1 w).1
        = (handshake A P prof magic role rng garbage decoys r2 w).1 ∧
      SameResult A k (handshake A P prof magic role rng garbage decoys r1 w).2.2
        (handshake A P prof magic role rng garbage decoys r2 w).2.2 := by
  obtain ⟨B⟩ := api_abs hA
  unfold handshake
  cases HsInitialized.newWithRng P prof magic role rng with
  | panic => exact ⟨rfl, .inr (.inl ⟨rfl, rfl⟩)⟩
  | err e => exact ⟨rfl, .inl ⟨_, rfl, rfl⟩⟩
  | ok h =>
    simp only
    obtain ⟨a1, f1⟩ := handshake_flat (prof := prof) B hP e1 h garbage decoys r1 bs h1 w
    obtain ⟨a2, f2⟩ := handshake_flat (prof := prof) B hP e2 h garbage decoys r2 bs h2 w
    refine ⟨a1.trans a2.symm, ?_⟩
    revert f1 f2
    cases (flatHandshake A.retry P prof h garbage decoys bs w).2 with
    | none => intro f1 f2; exact .inl ⟨_, f1, f2⟩
    | some r =>
      cases r with
      | panic => intro f1 f2; exact .inr (.inl ⟨f1, f2⟩)
      | err e => intro f1 f2; exact .inl ⟨e, f1, f2⟩
      | ok x =>
        obtain ⟨i, o, rest⟩ := x
        rintro ⟨s1, f1, st1⟩ ⟨s2, f2, st2⟩
        exact .inr (.inr ⟨i, o, s1, s2, rest, f1, f2, readable_of_streams B e1 st1,
          readable_of_streams B e2 st2⟩)

/-- C25: no byte is lost.  On success the stream is `used ++ rest` where exactly `rest` can be read
from the session reader, and `used` is the handshake: any transport that delivers only `used`
succeeds with the same ciphers and nothing left, and one that delivers less never does. -/
theorem C25_no_byte_lost {A : Api} (hA : A = syncApi ∨ A = asyncApi) (hP : Lawful P)
    (magic : Bytes) (role : Role) (rng : Bytes) (garbage : Option Bytes)
    (decoys : Option (List Bytes)) (bs : Bytes) {r tail : Source} {k : ErrorKind}
    (h1 : Streams false r bs tail) (e1 : EndsWith A.retry tail k) (w w' : Sink) {log : HsLog}
    {i : InboundCipher} {o : OutboundCipher} {s : A.Session}
    (hok : handshake A P prof magic role rng garbage decoys r w = (w', log, .ok (i, o, s))) :
    ∃ used rest, bs = used ++ rest ∧ Readable A s rest k ∧
      (∀ r' tail' k', Streams false r' used tail' → EndsWith A.retry tail' k' →
        ∃ log' s', handshake A P prof magic role rng garbage decoys r' w = (w', log', .ok (i, o, s')) ∧
          Readable A s' [] k') ∧
      (∀ p q r' tail' k', used = p ++ q → q ≠ [] → Streams false r' p tail' → EndsWith A.retry tail' k' →
        (handshake A P prof magic role rng garbage decoys r' w).2.2 = .err (.fromIo k')) := by
  obtain ⟨B⟩ := api_abs hA
  unfold handshake at hok ⊢
  cases hn : HsInitialized.newWithRng P prof magic role rng with
  | panic => rw [hn] at hok; cases hok
  | err e => rw [hn] at hok; cases hok
  | ok h =>
    rw [hn] at hok
    simp only at hok ⊢
    obtain ⟨a1, f1⟩ := handshake_flat (prof := prof) B hP e1 h garbage decoys r bs h1 w
    rw [hok] at a1 f1
    cases hf : flatHandshake A.retry P prof h garbage decoys bs w with
    | mk wf f =>
    rw [hf] at a1 f1
    simp only at a1 f1
    cases f with
    | none => cases f1
    | some rr =>
      cases rr with
      | panic => cases f1
      | err e => cases f1
      | ok x =>
        obtain ⟨i', o', rest⟩ := x
        obtain ⟨s', hx, st⟩ := f1
        simp only [Outcome.ok.injEq, Prod.mk.injEq] at hx
        obtain ⟨rfl, rfl, rfl⟩ := hx
        subst a1
        obtain ⟨used, hu, hfu⟩ := flatHandshake_consumed hP A.retry h garbage decoys bs w w' hf
        refine ⟨used, rest, hu, readable_of_streams B e1 st, ?_, ?_⟩
        · intro r' tail' k' hs' he'
          obtain ⟨a2, f2⟩ := handshake_flat (prof := prof) B hP he' h garbage decoys r' used hs' w
          rw [hfu] at a2 f2
          obtain ⟨s', hx, st'⟩ := f2
          cases hh : handshakeWithInitialized A P prof h garbage decoys r' w with
          | mk w2 y =>
          obtain ⟨log', res⟩ := y
          rw [hh] at a2 hx
          simp only at a2 hx
          subst a2 hx
          exact ⟨log', s', rfl, readable_of_streams B he' st'⟩
        · intro p q r' tail' k' hpq hq hs' he'
          obtain ⟨a2, f2⟩ := handshake_flat (prof := prof) B hP he' h garbage decoys r' p hs' w
          cases hfp : flatHandshake A.retry P prof h garbage decoys p w with
          | mk w2 f =>
          rw [hfp] at f2
          cases f with
          | none => exact f2
          | some rr =>
            have := flatHandshake_append hP A.retry h garbage decoys p q w w2 hfp
            rw [← hpq, hfu] at this
            simp only [Prod.mk.injEq, Option.some.injEq] at this
            obtain ⟨-, this⟩ := this
            cases rr with
            | panic => cases this
            | err e => cases this
            | ok x =>
              simp only [addRest, Outcome.ok.injEq, Prod.mk.injEq] at this
              have h3 := this.2.2.symm
              simp only [List.append_eq_nil_iff] at h3
              exact absurd h3.2 hq

/-- Beside C25: the same two bytes in two segmentations, one with a `Pending`. -/
example : Streams false [.data [1, 2]] [1, 2] [] ∧
    Streams false [.data [1], .pending, .data [2], .fail .connectionReset] [1, 2] [.fail .connectionReset] ∧
    EndsWith true [] .unexpectedEof ∧ EndsWith true [.fail .connectionReset] .connectionReset := by
  refine ⟨⟨[.data [1, 2]], ?_, rfl, rfl⟩, ⟨[.data [1], .pending, .data [2]], ?_, rfl, rfl⟩,
    .inl ⟨rfl, rfl⟩, .inr (.inr ⟨[], rfl, by simp⟩)⟩
  · intro e he
    simp only [List.mem_cons, List.not_mem_nil, or_false] at he
    subst he; exact .inr (.inl ⟨1, [2], rfl⟩)
  · intro e he
    simp only [List.mem_cons, List.not_mem_nil, or_false] at he
    rcases he with rfl | rfl | rfl
    · exact .inr (.inl ⟨1, [], rfl⟩)
    · exact .inl rfl
    · exact .inr (.inl ⟨2, [], rfl⟩)

/-! ## C26: two honest parties -/

/-- Two honest parties that can talk to each other: valid keys that are not mistaken for V1, garbage
of at most 4095 bytes without an early terminator, decoys that fit the receive limit. -/
structure HonestPair (P : Prims) (prof : Profile) (magic rngI rngR : Bytes) (gI gR : Option Bytes)
    (dI dR : Option (List Bytes)) : Prop where
  newI : Spec.UsableKey P prof rngI
  newR : Spec.UsableKey P prof rngR
  magicI : (P.ellswift rngI).take 4 ≠ magic
  magicR : (P.ellswift rngR).take 4 ≠ magic
  garbageI : (gI.getD []).length ≤ 4095
  garbageR : (gR.getD []).length ≤ 4095
  decoysI : ∀ d ∈ dI.getD [], d.length ≤ 3999997
  decoysR : ∀ d ∈ dR.getD [], d.length ≤ 3999997
  countI : (dI.getD []).length + 1 < 2 ^ 32
  countR : (dR.getD []).length + 1 < 2 ^ 32
  earlyI : NoEarlyTerminator ((Spec.expand P magic
    (Spec.ecdhSecret P (P.ellswift rngI) (P.ellswift rngR) rngI true) Spec.lblTerminators).take 16)
    (gI.getD [])
  earlyR : NoEarlyTerminator ((Spec.expand P magic
    (Spec.ecdhSecret P (P.ellswift rngI) (P.ellswift rngR) rngI true) Spec.lblTerminators).drop 16)
    (gR.getD [])

/-- The bytes the initiator sends during the handshake (BIP-324). -/
def wireI (P : Prims) (magic rngI rngR : Bytes) (gI : Option Bytes) (dI : Option (List Bytes)) : Bytes :=
  Spec.handshakeWire P magic (P.ellswift rngI)
    (Spec.ecdhSecret P (P.ellswift rngI) (P.ellswift rngR) rngI true) true (gI.getD []) (dI.getD [])

/-- The bytes the responder sends during the handshake (BIP-324). -/
def wireR (P : Prims) (magic rngI rngR : Bytes) (gR : Option Bytes) (dR : Option (List Bytes)) : Bytes :=
  Spec.handshakeWire P magic (P.ellswift rngR)
    (Spec.ecdhSecret P (P.ellswift rngI) (P.ellswift rngR) rngI true) false (gR.getD []) (dR.getD [])

/-- The session keys of two honest parties. -/
theorem pair_keys (hP : Lawful P) {magic rngI rngR : Bytes} (hvalI : P.validSecret rngI = true)
    (hvalR : P.validSecret rngR = true) (hmagicI : (P.ellswift rngI).take 4 ≠ magic)
    (hmagicR : (P.ellswift rngR).take 4 ≠ magic) :
    ∃ K : SessionKeyMaterial, (∀ r, (K.localTerminator r).length = 16) ∧
      (∀ g, HsSentKey.receiveKey P ⟨magic, .initiator, rngI, P.ellswift rngI, g⟩
        (P.ellswift rngR) = .ok ⟨magic, .initiator, K, g⟩) ∧
      (∀ g, HsSentKey.receiveKey P ⟨magic, .responder, rngR, P.ellswift rngR, g⟩
        (P.ellswift rngI) = .ok ⟨magic, .responder, K, g⟩) ∧
      K.localTerminator .initiator = (Spec.expand P magic
        (Spec.ecdhSecret P (P.ellswift rngI) (P.ellswift rngR) rngI true) Spec.lblTerminators).take 16 ∧
      K.localTerminator .responder = (Spec.expand P magic
        (Spec.ecdhSecret P (P.ellswift rngI) (P.ellswift rngR) rngI true) Spec.lblTerminators).drop 16 ∧
      (∀ gI dI, wireI P magic rngI rngR gI dI = P.ellswift rngI ++ gI.getD [] ++
        Spec.versionBytes P K.initiatorGarbageTerminator K.initiatorLengthKey K.initiatorPacketKey
          (gI.getD []) (dI.getD [])) ∧
      (∀ gR dR, wireR P magic rngI rngR gR dR = P.ellswift rngR ++ gR.getD [] ++
        Spec.versionBytes P K.responderGarbageTerminator K.responderLengthKey K.responderPacketKey
          (gR.getD []) (dR.getD [])) := by
  have hec : Spec.ecdhSecret P (P.ellswift rngI) (P.ellswift rngR) rngR false
      = Spec.ecdhSecret P (P.ellswift rngI) (P.ellswift rngR) rngI true :=
    (hP.ecdh_agree rngI rngR Spec.ecdhTag hvalI hvalR).symm
  have hkeysI := C17_derivation hP (P.ellswift rngI) (P.ellswift rngR) rngI magic true
  have hkeysR := C17_derivation hP (P.ellswift rngI) (P.ellswift rngR) rngR magic false
  rw [hec, if_neg (by decide)] at hkeysR
  rw [if_pos rfl] at hkeysI
  simp only at hkeysI hkeysR
  obtain ⟨-, -, -, -, -, ht1, ht2⟩ := C17_lengths hP hkeysI
  refine ⟨_, fun r => by cases r <;> assumption, fun g => ?_, fun g => ?_, rfl, rfl, fun gI dI => ?_,
    fun gR dR => ?_⟩
  · unfold HsSentKey.receiveKey
    simp only
    rw [if_neg (fun e => hmagicR e.symm), hkeysI]
  · unfold HsSentKey.receiveKey
    simp only
    rw [if_neg (fun e => hmagicI e.symm), hkeysR]
  · unfold wireI Spec.handshakeWire
    rw [if_pos rfl]
  · unfold wireR Spec.handshakeWire
    rw [if_neg (by decide)]

/-- The two flat handshakes of an honest pair. -/
theorem honest_pair (hP : Lawful P) {magic rngI rngR : Bytes} {gI gR : Option Bytes}
    {dI dR : Option (List Bytes)} (H : HonestPair P prof magic rngI rngR gI gR dI dR) :
    ∃ (iI iR : InboundCipher) (oI oR : OutboundCipher), Matching oI iR ∧ Matching oR iI ∧
      (∀ (retry : Bool) (w : Sink), w.Reliable retry →
        (∀ more, ∃ w', w'.Reliable retry ∧ w'.out = w.out ++ wireI P magic rngI rngR gI dI ∧
          flatHandshake retry P prof ⟨magic, .initiator, rngI, P.ellswift rngI⟩ gI dI
            (wireR P magic rngI rngR gR dR ++ more) w = (w', some (.ok (iI, oI, more)))) ∧
        (∀ p q, q ≠ [] → p ++ q = wireR P magic rngI rngR gR dR → ∃ w', w'.Reliable retry ∧
          w'.out = w.out ++ (if p.length < 64 then P.ellswift rngI ++ gI.getD []
            else wireI P magic rngI rngR gI dI) ∧
          flatHandshake retry P prof ⟨magic, .initiator, rngI, P.ellswift rngI⟩ gI dI p w
            = (w', none))) ∧
      (∀ (retry : Bool) (w : Sink), w.Reliable retry →
        (∀ more, ∃ w', w'.Reliable retry ∧ w'.out = w.out ++ wireR P magic rngI rngR gR dR ∧
          flatHandshake retry P prof ⟨magic, .responder, rngR, P.ellswift rngR⟩ gR dR
            (wireI P magic rngI rngR gI dI ++ more) w = (w', some (.ok (iR, oR, more)))) ∧
        (∀ p q, q ≠ [] → p ++ q = wireI P magic rngI rngR gI dI → ∃ w', w'.Reliable retry ∧
          w'.out = w.out ++ (if p.length < 64 then P.ellswift rngR ++ gR.getD []
            else wireR P magic rngI rngR gR dR) ∧
          flatHandshake retry P prof ⟨magic, .responder, rngR, P.ellswift rngR⟩ gR dR p w
            = (w', none))) ∧
      (∃ kL kP, OutboundCipher.At P kL kP ((dI.getD []).length + 1) oI) ∧
      ∃ kL kP, OutboundCipher.At P kL kP ((dR.getD []).length + 1) oR := by
  have hesI := hP.ellswift_length rngI
  have hesR := hP.ellswift_length rngR
  obtain ⟨K, hterm, hrkI, hrkR, c1, c2, hwI0, hwR0⟩ := pair_keys hP H.newI.1
    H.newR.1 H.magicI H.magicR
  have hearlyI := H.earlyI
  have hearlyR := H.earlyR
  rw [← c1] at hearlyI
  rw [← c2] at hearlyR
  obtain ⟨oI, wsI, hsI, hwI⟩ := sendAll_handshake (prof := prof) hP K .initiator gI (dI.getD []) H.countI
  obtain ⟨oR, wsR, hsR, hwR⟩ := sendAll_handshake (prof := prof) hP K .responder gR (dR.getD []) H.countR
  obtain ⟨iI, hmI, fI⟩ := flatHandshake_honest hP ⟨magic, .initiator, rngI, P.ellswift rngI⟩ hesI
    (P.ellswift rngR) hesR K hterm hrkI .responder (by simp) gI gR dI dR H.garbageI H.garbageR
    H.decoysR hearlyR hsI hsR
  obtain ⟨iR, hmR, fR⟩ := flatHandshake_honest hP ⟨magic, .responder, rngR, P.ellswift rngR⟩ hesR
    (P.ellswift rngI) hesI K hterm hrkR .initiator (by simp) gR gI dR dI H.garbageR H.garbageI
    H.decoysI hearlyI hsR hsI
  have eI : wireI P magic rngI rngR gI dI
      = P.ellswift rngI ++ gI.getD [] ++ (K.localTerminator .initiator ++ wsI.flatten) := by
    rw [hwI0, hwI]; rfl
  have eR : wireR P magic rngI rngR gR dR
      = P.ellswift rngR ++ gR.getD [] ++ (K.localTerminator .responder ++ wsR.flatten) := by
    rw [hwR0, hwR]; rfl
  refine ⟨iI, iR, oI, oR, hmR, hmI, ?_, ?_, ?_, ?_⟩
  · rw [eI, eR]; exact fI
  · rw [eI, eR]; exact fR
  · exact ⟨_, _, sendAll_handshake_at hP K .initiator gI (dI.getD []) H.countI hsI⟩
  · exact ⟨_, _, sendAll_handshake_at hP K .responder gR (dR.getD []) H.countR hsR⟩

/-- No terminator starts inside a garbage whose bytes all differ from the terminator's first byte. -/
theorem noEarly_of_head {t g : Bytes} {b : UInt8} (ht : t.head? = some b) (hg : b ∉ g) :
    NoEarlyTerminator t g := by
  intro j hj ⟨pre, post, h, hl⟩
  have h1 : (g ++ t)[j]? = (pre ++ t ++ post)[j]? := by rw [h]
  rw [List.getElem?_append_left hj, List.append_assoc, List.getElem?_append_right (by omega), hl,
    Nat.sub_self] at h1
  cases t with
  | nil => simp at ht
  | cons c t =>
    simp only [List.head?_cons, Option.some.injEq] at ht
    subst ht
    simp only [List.cons_append, List.getElem?_cons_zero] at h1
    exact hg (List.mem_of_getElem? h1)

/-- Non-vacuity of `HonestPair`: garbage on one side, a decoy and an empty decoy. -/
theorem sample_pair : HonestPair toy .debug [1, 2, 3, 4] (leBytes 32 77) (leBytes 32 99)
    (some [42, 42]) none (some [[1, 2, 3], []]) none where
  newI := by decide +kernel
  newR := by decide +kernel
  magicI := by decide +kernel
  magicR := by decide +kernel
  garbageI := by decide +kernel
  garbageR := by decide +kernel
  decoysI := by decide +kernel
  decoysR := by decide +kernel
  countI := by decide +kernel
  countR := by decide +kernel
  earlyI := by
    generalize ht : List.take 16 _ = t
    refine noEarly_of_head (b := t.headD 0) ?_ ?_
    · rw [← ht]; decide +kernel
    · rw [← ht]; decide +kernel
  earlyR := by intro j hj; simp at hj

/-- The two I/O handshakes of an honest pair, with the state of the session readers. -/
theorem honest_sessions (hP : Lawful P) {magic rngI rngR : Bytes} {gI gR : Option Bytes}
    {dI dR : Option (List Bytes)} (H : HonestPair P prof magic rngI rngR gI gR dI dR) :
    ∃ (iI iR : InboundCipher) (oI oR : OutboundCipher), Matching oI iR ∧ Matching oR iI ∧
      (∀ (A : Api) (B : A.Abs) (w : Sink) (src tail : Source) (k : ErrorKind) (more : Bytes),
        w.Reliable A.retry → EndsWith A.retry tail k →
        Streams false src (wireR P magic rngI rngR gR dR ++ more) tail →
        ∃ w' log s, handshake A P prof magic .initiator rngI gI dI src w = (w', log, .ok (iI, oI, s)) ∧
          w'.Reliable A.retry ∧ w'.out = w.out ++ wireI P magic rngI rngR gI dI ∧
          SessStreams B s more tail) ∧
      (∀ (A : Api) (B : A.Abs) (w : Sink) (src tail : Source) (k : ErrorKind) (more : Bytes),
        w.Reliable A.retry → EndsWith A.retry tail k →
        Streams false src (wireI P magic rngI rngR gI dI ++ more) tail →
        ∃ w' log s, handshake A P prof magic .responder rngR gR dR src w = (w', log, .ok (iR, oR, s)) ∧
          w'.Reliable A.retry ∧ w'.out = w.out ++ wireR P magic rngI rngR gR dR ∧
          SessStreams B s more tail) ∧
      (∃ kL kP, OutboundCipher.At P kL kP ((dI.getD []).length + 1) oI) ∧
      ∃ kL kP, OutboundCipher.At P kL kP ((dR.getD []).length + 1) oR := by
  obtain ⟨iI, iR, oI, oR, hm1, hm2, fI, fR, at1⟩ := honest_pair hP H
  refine ⟨iI, iR, oI, oR, hm1, hm2, ?_, ?_, at1⟩
  · intro A B w src tail k more hw he hs
    obtain ⟨w', hrel, ho, hf⟩ := (fI A.retry w hw).1 more
    obtain ⟨a, f⟩ := handshake_flat (prof := prof) B hP he
      ⟨magic, .initiator, rngI, P.ellswift rngI⟩ gI dI src _ hs w
    unfold handshake
    rw [newWithRng_ok H.newI]
    simp only
    rw [hf] at a f
    obtain ⟨s, hx, st⟩ := f
    cases hh : handshakeWithInitialized A P prof ⟨magic, .initiator, rngI, P.ellswift rngI⟩ gI dI src w with
    | mk w2 y =>
    obtain ⟨log', res⟩ := y
    rw [hh] at a hx
    simp only at a hx
    subst a hx
    exact ⟨w2, log', s, rfl, hrel, ho, st⟩
  · intro A B w src tail k more hw he hs
    obtain ⟨w', hrel, ho, hf⟩ := (fR A.retry w hw).1 more
    obtain ⟨a, f⟩ := handshake_flat (prof := prof) B hP he
      ⟨magic, .responder, rngR, P.ellswift rngR⟩ gR dR src _ hs w
    unfold handshake
    rw [newWithRng_ok H.newR]
    simp only
    rw [hf] at a f
    obtain ⟨s, hx, st⟩ := f
    cases hh : handshakeWithInitialized A P prof ⟨magic, .responder, rngR, P.ellswift rngR⟩ gR dR src w with
    | mk w2 y =>
    obtain ⟨log', res⟩ := y
    rw [hh] at a hx
    simp only at a hx
    subst a hx
    exact ⟨w2, log', s, rfl, hrel, ho, st⟩

/-- C26: over a reliable byte stream with any segmentation, initiator and responder (each of either
API) both return `Ok`, with matching ciphers; each sends exactly its BIP-324 handshake bytes, and
everything that follows on the wire is left for the session reader. -/
theorem C26_end_to_end (hP : Lawful P) {magic rngI rngR : Bytes} {gI gR : Option Bytes}
    {dI dR : Option (List Bytes)} (H : HonestPair P prof magic rngI rngR gI gR dI dR) :
    ∃ (iI iR : InboundCipher) (oI oR : OutboundCipher), Matching oI iR ∧ Matching oR iI ∧
      (∀ A, A = syncApi ∨ A = asyncApi → ∀ (w : Sink) (src tail : Source) (k : ErrorKind) (more : Bytes),
        w.Reliable A.retry → EndsWith A.retry tail k →
        Streams false src (wireR P magic rngI rngR gR dR ++ more) tail →
        ∃ w' log s, handshake A P prof magic .initiator rngI gI dI src w = (w', log, .ok (iI, oI, s)) ∧
          w'.out = w.out ++ wireI P magic rngI rngR gI dI ∧ Readable A s more k) ∧
      (∀ A, A = syncApi ∨ A = asyncApi → ∀ (w : Sink) (src tail : Source) (k : ErrorKind) (more : Bytes),
        w.Reliable A.retry → EndsWith A.retry tail k →
        Streams false src (wireI P magic rngI rngR gI dI ++ more) tail →
        ∃ w' log s, handshake A P prof magic .responder rngR gR dR src w = (w', log, .ok (iR, oR, s)) ∧
          w'.out = w.out ++ wireR P magic rngI rngR gR dR ∧ Readable A s more k) := by
  obtain ⟨iI, iR, oI, oR, hm1, hm2, fI, fR, -⟩ := honest_sessions hP H
  refine ⟨iI, iR, oI, oR, hm1, hm2, ?_, ?_⟩
  · intro A hA w src tail k more hw he hs
    obtain ⟨B⟩ := api_abs hA
    obtain ⟨w', log, s, hh, -, ho, st⟩ := fI A B w src tail k more hw he hs
    exact ⟨w', log, s, hh, ho, readable_of_streams B he st⟩
  · intro A hA w src tail k more hw he hs
    obtain ⟨B⟩ := api_abs hA
    obtain ⟨w', log, s, hh, -, ho, st⟩ := fR A B w src tail k more hw he hs
    exact ⟨w', log, s, hh, ho, readable_of_streams B he st⟩

example : ∃ (w : Sink), w.Reliable true ∧ w.script = [.accept 3, .fail .interrupted, .accept 1] :=
  ⟨⟨[.accept 3, .fail .interrupted, .accept 1], [], []⟩, ⟨by
    intro e he
    simp only [List.mem_cons, List.not_mem_nil, or_false] at he
    rcases he with rfl | rfl | rfl
    · exact .inr (.inl ⟨2, rfl⟩)
    · exact .inr (.inr ⟨rfl, rfl⟩)
    · exact .inr (.inl ⟨0, rfl⟩), by simp⟩, rfl⟩

/-! ## C27: resource bounds -/

theorem Source.read_length (s : Source) (n : Nat) {s' : Source} {bs : Bytes}
    (h : s.read n = (s', .ok bs)) : bs.length ≤ n := by
  induction s with
  | nil =>
    simp only [Source.read, Prod.mk.injEq, ReadRes.ok.injEq] at h
    rw [← h.2]; simp
  | cons e s ih =>
    cases e with
    | pending => exact ih h
    | fail k => simp [Source.read] at h
    | data ds =>
      simp only [Source.read] at h
      split at h
      · simp only [Prod.mk.injEq, ReadRes.ok.injEq] at h
        rw [← h.2]; assumption
      · simp only [Prod.mk.injEq, ReadRes.ok.injEq] at h
        rw [← h.2]; simp; omega

theorem readExact_length {σ : Type} (R : Reader σ) (retry : Bool)
    (hR : ∀ s n s' bs, R.read s n = (s', .ok bs) → bs.length ≤ n) (s : σ) (n : Nat) (acc : Bytes)
    {s' : σ} {bs : Bytes} (h : R.readExact retry s n acc = (s', .ok bs)) :
    bs.length = acc.length + n := by
  fun_induction Reader.readExact R retry s n acc with
  | case1 s acc =>
    simp only [Prod.mk.injEq, Except.ok.injEq] at h
    rw [← h.2]; omega
  | case2 s need acc hz s1 heq => simp at h
  | case3 s need acc hz s1 b ds heq ih =>
    have := hR _ _ _ _ heq
    rw [ih h, List.length_append]
    omega
  | case4 s need acc hz s1 k heq hr ih => exact ih h
  | case5 s need acc hz s1 k heq hr => simp at h

theorem garbageLoop_log (h : HsSentVersion) (ht : h.remoteTerminator.length = 16) (buf : Bytes)
    (src : Source) (hb : buf.length ≤ 4366) : ∀ n ∈ (garbageLoop h buf src).1, n ≤ 4366 := by
  induction hs : src.size using Nat.strongRecOn generalizing buf src with
  | ind m ih =>
  rw [garbageLoop_eq]
  cases hr : h.receiveGarbage buf with
  | panic => simpa using hb
  | err e => simpa using hb
  | ok g =>
    cases g with
    | foundGarbage h' c => simpa using hb
    | needMoreData h' =>
      obtain ⟨rfl, hlt, -⟩ := (C21_need_more h ht _ h').1 hr
      simp only
      cases hrd : src.read 256 with
      | mk src' r =>
      cases r with
      | err k => simpa using hb
      | ok bs =>
        cases bs with
        | nil => simpa using hb
        | cons b bs =>
          have hl := Source.read_length _ _ hrd
          have hd := Source.read_dec _ _ _ _ (by omega) hrd
          simp only [reduceCtorEq, and_false, or_false, ReadRes.ok.injEq] at hd
          have := ih src'.size (by omega) (buf ++ b :: bs) src' (by simp at hl ⊢; omega) rfl
          simp only [List.mem_cons]
          rintro n (rfl | hn)
          · exact hb
          · exact this n hn

theorem versionLoop_log (A : Api) (h : HsReceivedGarbage) (s : A.Session) :
    ∀ n ∈ (versionLoop A P prof h s).1, n ≤ 4000014 := by
  induction hs : A.reader.size s using Nat.strongRecOn generalizing h s with
  | ind m ih =>
  rw [versionLoop_eq]
  cases h1 : A.reader.readExact A.retry s NUM_LENGTH_BYTES with
  | mk s1 r1 =>
  cases r1 with
  | error k => simp
  | ok lb =>
    simp only
    cases h.decryptPacketLen P prof lb with
    | mk g r =>
    cases r with
    | panic => simp
    | err e => simp
    | ok len =>
      simp only
      by_cases hl : len > MAX_PACKET_SIZE_FOR_ALLOCATION
      · rw [if_pos hl]; simp
      rw [if_neg hl]
      have hl : len ≤ 4000014 := Nat.le_of_not_lt hl
      cases h2 : A.reader.readExact A.retry s1 len with
      | mk s2 r2 =>
      cases r2 with
      | error k => simpa using hl
      | ok pb =>
        simp only
        cases g.receiveVersion P prof pb with
        | mk b r =>
        cases r with
        | panic => simpa using hl
        | err e => simpa using hl
        | ok v =>
          cases v with
          | complete c => simpa using hl
          | decoy g2 =>
            have a := (A.reader.readExact_size _ _ _ _ _ _ h1).2 (by decide) ⟨_, rfl⟩
            have b := (A.reader.readExact_size _ _ _ _ _ _ h2).1
            have := ih (A.reader.size s2) (by omega) g2 s2 rfl
            simp only [List.mem_cons]
            rintro n (rfl | hn)
            · exact hl
            · exact this n hn

/-- C27: whatever the transport delivers (any bytes, any segmentation, errors, early ends), the
garbage buffer never exceeds 4366 bytes and no packet buffer above 4000014 bytes is allocated.  The
sizes are the ghost log of the modelled handshake. -/
theorem C27_bounds (A : Api) (hP : Lawful P) (magic : Bytes) (role : Role) (rng : Bytes)
    (garbage : Option Bytes) (decoys : Option (List Bytes)) (reader : Source) (writer : Sink) :
    (∀ n ∈ (handshake A P prof magic role rng garbage decoys reader writer).2.1.garbage, n ≤ 4366) ∧
    (∀ n ∈ (handshake A P prof magic role rng garbage decoys reader writer).2.1.packets,
      n ≤ 4000014) := by
  unfold handshake
  cases HsInitialized.newWithRng P prof magic role rng with
  | panic => simp
  | err e => simp
  | ok h =>
  simp only
  unfold handshakeWithInitialized
  cases h.sendKey garbage (zeros (HsInitialized.sendKeyLen garbage)) with
  | mk keyBuffer r =>
  cases r with
  | panic => simp
  | err e => simp
  | ok h1 =>
  simp only
  cases writer.send A.retry keyBuffer with
  | mk writer r =>
  cases r with
  | error k => simp
  | ok u =>
  simp only
  cases Source.reader.readExact A.retry reader NUM_ELLIGATOR_SWIFT_BYTES with
  | mk reader r =>
  cases r with
  | error k => simp
  | ok key =>
  simp only
  cases hk : h1.receiveKey P key with
  | panic => simp
  | err e => simp
  | ok h2 =>
  simp only
  cases hv : h2.sendVersion P prof (zeros (HsReceivedKey.sendVersionLen decoys)) decoys with
  | mk versionBuffer r =>
  cases r with
  | panic => simp
  | err e => simp
  | ok h3 =>
  simp only
  have ht : h3.remoteTerminator.length = 16 := by
    rw [sendVersion_terminator hv]; exact receiveKey_terminators hP hk _
  cases writer.send A.retry versionBuffer with
  | mk writer r =>
  cases r with
  | error k => simp
  | ok u =>
  simp only
  cases hre : Source.reader.readExact A.retry reader NUM_GARBAGE_TERMINATOR_BYTES with
  | mk reader r =>
  cases r with
  | error k => simp
  | ok gb =>
  simp only
  have hgb : gb.length = 16 := by
    have := readExact_length Source.reader A.retry (fun s n s' bs => Source.read_length s n) _ _ _ hre
    simpa using this
  have hlog := garbageLoop_log h3 ht gb reader (by omega)
  cases hg : garbageLoop h3 gb reader with
  | mk glog r =>
  rw [hg] at hlog
  simp only at hlog
  cases r with
  | panic => exact ⟨hlog, by simp⟩
  | err e => exact ⟨hlog, by simp⟩
  | ok x =>
    obtain ⟨h4, nb, gb2, reader2⟩ := x
    exact ⟨hlog, versionLoop_log A h4 _⟩

/-- Beside C27: the logs are not empty; the buffer grows with what a peer sends without terminator. -/
example : (handshake syncApi toy .release [1, 2, 3, 4] .initiator (leBytes 32 77) none none
    [.data (zeros 64), .data (List.replicate 300 7)] ⟨[], [], []⟩).2.1.garbage = [16, 272, 300] := by
  decide +kernel

/-- C27: a peer that announces a packet above the limit, after any number of acceptable decoys, gets
`PacketTooBig` (here the responder; `big` is what the initiator sends too much). -/
theorem C27_too_big_responder (hP : Lawful P) {magic rngI rngR : Bytes} {gI gR : Option Bytes}
    {ds : List Bytes} {dR : Option (List Bytes)}
    (H : HonestPair P prof magic rngI rngR gI gR (some ds) dR) (big : Bytes) (ds2 : List Bytes)
    (hb1 : 3999997 < big.length) (hb2 : big.length < 2 ^ 24)
    (hc : (ds ++ big :: ds2).length + 1 < 2 ^ 32) {A : Api} (hA : A = syncApi ∨ A = asyncApi)
    (w : Sink) (hw : w.Reliable A.retry) (src tail : Source) (k : ErrorKind) (more : Bytes)
    (he : EndsWith A.retry tail k)
    (hs : Streams false src (wireI P magic rngI rngR gI (some (ds ++ big :: ds2)) ++ more) tail) :
    (handshake A P prof magic .responder rngR gR dR src w).2.2 = .err (.internal .packetTooBig) := by
  obtain ⟨B⟩ := api_abs hA
  obtain ⟨K, hterm, hrkI, hrkR, c1, c2, hwI0, hwR0⟩ := pair_keys hP H.newI.1
    H.newR.1 H.magicI H.magicR
  have hearlyI := H.earlyI
  rw [← c1] at hearlyI
  obtain ⟨oI, wsI, hsI, hwI⟩ := sendAll_handshake (prof := prof) hP K .initiator gI
    (ds ++ big :: ds2) hc
  obtain ⟨oR, wsR, hsR, hwR⟩ := sendAll_handshake (prof := prof) hP K .responder gR (dR.getD []) H.countR
  have eI : wireI P magic rngI rngR gI (some (ds ++ big :: ds2))
      = P.ellswift rngI ++ (gI.getD [] ++ (K.localTerminator .initiator ++ wsI.flatten)) := by
    rw [hwI0, ← List.append_assoc, hwI]; rfl
  obtain ⟨w1, w2, -, -, -, -, -, hlong⟩ :=
    flatHandshake_reach hP ⟨magic, .responder, rngR, P.ellswift rngR⟩ (hP.ellswift_length _)
      (P.ellswift rngI) (hP.ellswift_length _) K hterm hrkR gR dR H.garbageR hsR A.retry w hw
  obtain ⟨-, f⟩ := handshake_flat (prof := prof) B hP he
    ⟨magic, .responder, rngR, P.ellswift rngR⟩ gR dR src _ hs w
  unfold handshake
  rw [newWithRng_ok H.newR]
  simp only
  rw [eI, List.append_assoc, hlong, flatPeer_tooBig hP _ gI ds big ds2 (K.localTerminator .initiator) (hterm _)
    rfl H.garbageI hearlyI (by exact ⟨rfl, rfl⟩) (fun d hd => H.decoysI d hd) hb1 hb2 hsI more] at f
  exact f

/-- C27: the same for the initiator. -/
theorem C27_too_big_initiator (hP : Lawful P) {magic rngI rngR : Bytes} {gI gR : Option Bytes}
    {dI : Option (List Bytes)} {ds : List Bytes}
    (H : HonestPair P prof magic rngI rngR gI gR dI (some ds)) (big : Bytes) (ds2 : List Bytes)
    (hb1 : 3999997 < big.length) (hb2 : big.length < 2 ^ 24)
    (hc : (ds ++ big :: ds2).length + 1 < 2 ^ 32) {A : Api} (hA : A = syncApi ∨ A = asyncApi)
    (w : Sink) (hw : w.Reliable A.retry) (src tail : Source) (k : ErrorKind) (more : Bytes)
    (he : EndsWith A.retry tail k)
    (hs : Streams false src (wireR P magic rngI rngR gR (some (ds ++ big :: ds2)) ++ more) tail) :
    (handshake A P prof magic .initiator rngI gI dI src w).2.2 = .err (.internal .packetTooBig) := by
  obtain ⟨B⟩ := api_abs hA
  obtain ⟨K, hterm, hrkI, hrkR, c1, c2, hwI0, hwR0⟩ := pair_keys hP H.newI.1
    H.newR.1 H.magicI H.magicR
  have hearlyR := H.earlyR
  rw [← c2] at hearlyR
  obtain ⟨oI, wsI, hsI, hwI⟩ := sendAll_handshake (prof := prof) hP K .initiator gI (dI.getD []) H.countI
  obtain ⟨oR, wsR, hsR, hwR⟩ := sendAll_handshake (prof := prof) hP K .responder gR
    (ds ++ big :: ds2) hc
  have eR : wireR P magic rngI rngR gR (some (ds ++ big :: ds2))
      = P.ellswift rngR ++ (gR.getD [] ++ (K.localTerminator .responder ++ wsR.flatten)) := by
    rw [hwR0, ← List.append_assoc, hwR]; rfl
  obtain ⟨w1, w2, -, -, -, -, -, hlong⟩ :=
    flatHandshake_reach hP ⟨magic, .initiator, rngI, P.ellswift rngI⟩ (hP.ellswift_length _)
      (P.ellswift rngR) (hP.ellswift_length _) K hterm hrkI gI dI H.garbageI hsI A.retry w hw
  obtain ⟨-, f⟩ := handshake_flat (prof := prof) B hP he
    ⟨magic, .initiator, rngI, P.ellswift rngI⟩ gI dI src _ hs w
  unfold handshake
  rw [newWithRng_ok H.newI]
  simp only
  rw [eR, List.append_assoc, hlong, flatPeer_tooBig hP _ gR ds big ds2 (K.localTerminator .responder) (hterm _)
    rfl H.garbageR hearlyR (by exact ⟨rfl, rfl⟩) (fun d hd => H.decoysR d hd) hb1 hb2 hsR more] at f
  exact f

/-- Beside C27: the hypotheses of the `PacketTooBig` theorems can be met. -/
example : ∃ big : Bytes, 3999997 < big.length ∧ big.length < 2 ^ 24 ∧
    ([[1, 2, 3], []] ++ big :: [[5]] : List Bytes).length + 1 < 2 ^ 32 ∧
    HonestPair toy .debug [1, 2, 3, 4] (leBytes 32 77) (leBytes 32 99)
      (some [42, 42]) none (some [[1, 2, 3], []]) none :=
  ⟨zeros 3999998, by rw [zeros_length]; omega, by rw [zeros_length]; omega, by simp, sample_pair⟩

/-! ## C33: classification of I/O failures -/

/-- The error kinds after which a V1 retry makes sense: the peer went away. -/
def PeerGone (k : ErrorKind) : Prop :=
  k = .connectionReset ∨ k = .connectionAborted ∨ k = .unexpectedEof

/-- Every I/O error in the result carries the `RetryV1` suggestion exactly for the `PeerGone` kinds,
and `Abort` otherwise. -/
def Classified {α : Type} (r : Outcome ProtocolError α) : Prop :=
  ∀ k s, r = .err (.io k s) → (PeerGone k ∧ s = .retryV1) ∨ (¬ PeerGone k ∧ s = .abort)

theorem classified_fromIo {α : Type} (k : ErrorKind) : Classified (.err (.fromIo k) : Outcome ProtocolError α) := by
  intro k' s h
  simp only [ProtocolError.fromIo, Outcome.err.injEq, ProtocolError.io.injEq] at h
  obtain ⟨rfl, rfl⟩ := h
  cases k <;> simp [PeerGone]

theorem classified_eof {α : Type} : Classified (.err .eof : Outcome ProtocolError α) := by
  intro k' s h
  simp only [ProtocolError.eof, Outcome.err.injEq, ProtocolError.io.injEq] at h
  obtain ⟨rfl, rfl⟩ := h
  simp [PeerGone]

theorem classified_internal {α : Type} (e : Error) :
    Classified (.err (.internal e) : Outcome ProtocolError α) := by
  intro k s h; simp at h

theorem classified_panic {α : Type} : Classified (.panic : Outcome ProtocolError α) := by
  intro k s h; cases h

theorem classified_ok {α : Type} (x : α) : Classified (.ok x : Outcome ProtocolError α) := by
  intro k s h; cases h

theorem Classified.of_err {α β : Type} {e : ProtocolError}
    (h : Classified (.err e : Outcome ProtocolError α)) : Classified (.err e : Outcome ProtocolError β) := by
  intro k s he
  simp only [Outcome.err.injEq] at he
  exact h k s (by rw [he])

theorem garbageLoop_classified (h : HsSentVersion) (ht : h.remoteTerminator.length = 16) (buf : Bytes)
    (src : Source) : Classified (garbageLoop h buf src).2 := by
  induction hs : src.size using Nat.strongRecOn generalizing buf src with
  | ind m ih =>
  rw [garbageLoop_eq]
  cases hr : h.receiveGarbage buf with
  | panic => exact classified_panic
  | err e => exact classified_internal e
  | ok g =>
    cases g with
    | foundGarbage h' c => exact classified_ok _
    | needMoreData h' =>
      obtain ⟨rfl, -, -⟩ := (C21_need_more h ht _ h').1 hr
      simp only
      cases hrd : src.read 256 with
      | mk src' r =>
      cases r with
      | err k => exact classified_fromIo k
      | ok bs =>
        cases bs with
        | nil => exact classified_eof
        | cons b bs =>
          have hd := Source.read_dec _ _ _ _ (by omega) hrd
          simp only [reduceCtorEq, and_false, or_false, ReadRes.ok.injEq] at hd
          exact ih src'.size (by omega) (buf ++ b :: bs) src' rfl

theorem versionLoop_classified (A : Api) (h : HsReceivedGarbage) (s : A.Session) :
    Classified (versionLoop A P prof h s).2 := by
  induction hs : A.reader.size s using Nat.strongRecOn generalizing h s with
  | ind m ih =>
  rw [versionLoop_eq]
  cases h1 : A.reader.readExact A.retry s NUM_LENGTH_BYTES with
  | mk s1 r1 =>
  cases r1 with
  | error k => exact classified_fromIo k
  | ok lb =>
    simp only
    cases h.decryptPacketLen P prof lb with
    | mk g r =>
    cases r with
    | panic => exact classified_panic
    | err e => exact classified_internal e
    | ok len =>
      simp only
      by_cases hl : len > MAX_PACKET_SIZE_FOR_ALLOCATION
      · rw [if_pos hl]; exact classified_internal _
      rw [if_neg hl]
      cases h2 : A.reader.readExact A.retry s1 len with
      | mk s2 r2 =>
      cases r2 with
      | error k => exact classified_fromIo k
      | ok pb =>
        simp only
        cases g.receiveVersion P prof pb with
        | mk b r =>
        cases r with
        | panic => exact classified_panic
        | err e => exact classified_internal e
        | ok v =>
          cases v with
          | complete c => exact classified_ok _
          | decoy g2 =>
            have a := (A.reader.readExact_size _ _ _ _ _ _ h1).2 (by decide) ⟨_, rfl⟩
            have b := (A.reader.readExact_size _ _ _ _ _ _ h2).1
            exact ih (A.reader.size s2) (by omega) g2 s2 rfl

/-- C33: every I/O error the handshake reports is classified as documented, for every transport
behaviour. -/
theorem C33_handshake_classified (A : Api) (hP : Lawful P) (magic : Bytes) (role : Role) (rng : Bytes)
    (garbage : Option Bytes) (decoys : Option (List Bytes)) (reader : Source) (writer : Sink) :
    Classified (handshake A P prof magic role rng garbage decoys reader writer).2.2 := by
  unfold handshake
  cases HsInitialized.newWithRng P prof magic role rng with
  | panic => exact classified_panic
  | err e => exact classified_internal e
  | ok h =>
  simp only
  unfold handshakeWithInitialized
  cases h.sendKey garbage (zeros (HsInitialized.sendKeyLen garbage)) with
  | mk keyBuffer r =>
  cases r with
  | panic => exact classified_panic
  | err e => exact classified_internal e
  | ok h1 =>
  simp only
  cases writer.send A.retry keyBuffer with
  | mk writer r =>
  cases r with
  | error k => exact classified_fromIo k
  | ok u =>
  simp only
  cases Source.reader.readExact A.retry reader NUM_ELLIGATOR_SWIFT_BYTES with
  | mk reader r =>
  cases r with
  | error k => exact classified_fromIo k
  | ok key =>
  simp only
  cases hk : h1.receiveKey P key with
  | panic => exact classified_panic
  | err e => exact classified_internal e
  | ok h2 =>
  simp only
  cases hv : h2.sendVersion P prof (zeros (HsReceivedKey.sendVersionLen decoys)) decoys with
  | mk versionBuffer r =>
  cases r with
  | panic => exact classified_panic
  | err e => exact classified_internal e
  | ok h3 =>
  simp only
  have ht : h3.remoteTerminator.length = 16 := by
    rw [sendVersion_terminator hv]; exact receiveKey_terminators hP hk _
  cases writer.send A.retry versionBuffer with
  | mk writer r =>
  cases r with
  | error k => exact classified_fromIo k
  | ok u =>
  simp only
  cases hre : Source.reader.readExact A.retry reader NUM_GARBAGE_TERMINATOR_BYTES with
  | mk reader r =>
  cases r with
  | error k => exact classified_fromIo k
  | ok gb =>
  simp only
  have hc := garbageLoop_classified h3 ht gb reader
  cases hg : garbageLoop h3 gb reader with
  | mk glog r =>
  rw [hg] at hc
  simp only at hc
  cases r with
  | panic => exact classified_panic
  | err e => exact hc.of_err
  | ok x =>
    obtain ⟨h4, nb, gb2, reader2⟩ := x
    exact versionLoop_classified A h4 _

/-- C33: the same for the synchronous session reads. -/
theorem C33_sync_read_classified (r : SyncReader) : Classified (r.read P prof).2 := by
  unfold SyncReader.read
  split
  · exact classified_fromIo _
  split
  · exact classified_panic
  · exact classified_internal _
  split
  · exact classified_fromIo _
  split
  · exact classified_panic
  · exact classified_internal _
  split
  · exact classified_panic
  · exact classified_ok _

/-- C33: the same for the asynchronous session reads. -/
theorem C33_async_read_classified (r : AsyncReader) {r' : AsyncReader} {x : Outcome ProtocolError Payload}
    (h : r.poll P prof = (r', .ready x)) : Classified x := by
  have key : ∀ c s b n r' x, AsyncReader.pollPayload P prof c s b n = (r', .ready x) → Classified x := by
    intro c s b n r' x h
    unfold AsyncReader.pollPayload at h
    split at h
    · simp at h
    · simp only [Prod.mk.injEq, PollResult.ready.injEq] at h; rw [← h.2]; exact classified_fromIo _
    · split at h
      · simp only [Prod.mk.injEq, PollResult.ready.injEq] at h; rw [← h.2]; exact classified_panic
      split at h
      · simp only [Prod.mk.injEq, PollResult.ready.injEq] at h; rw [← h.2]; exact classified_panic
      · simp only [Prod.mk.injEq, PollResult.ready.injEq] at h; rw [← h.2]; exact classified_internal _
      split at h
      · simp only [Prod.mk.injEq, PollResult.ready.injEq] at h; rw [← h.2]; exact classified_panic
      · simp only [Prod.mk.injEq, PollResult.ready.injEq] at h; rw [← h.2]; exact classified_ok _
  unfold AsyncReader.poll at h
  split at h
  · split at h
    · simp at h
    · simp only [Prod.mk.injEq, PollResult.ready.injEq] at h; rw [← h.2]; exact classified_fromIo _
    · split at h
      · simp only [Prod.mk.injEq, PollResult.ready.injEq] at h; rw [← h.2]; exact classified_panic
      · simp only [Prod.mk.injEq, PollResult.ready.injEq] at h; rw [← h.2]; exact classified_internal _
      · exact key _ _ _ _ _ _ h
  · exact key _ _ _ _ _ _ h

/-- C33: the same for writes in both APIs. -/
theorem C33_write_classified (w : Writer) (p : Payload) :
    Classified (w.writeSync P prof p).2 ∧ Classified (w.writeAsync P prof p).2 := by
  constructor
  · unfold Writer.writeSync
    split
    · split
      · exact classified_panic
      · exact classified_internal _
      · split
        · exact classified_fromIo _
        · exact classified_ok _
    · exact classified_panic
  · unfold Writer.writeAsync
    split
    · split
      · exact classified_panic
      · exact classified_internal _
      · split
        · exact classified_fromIo _
        · exact classified_ok _
    · exact classified_panic

/-- C33, what holds of "a peer that closes the connection at any point of the handshake always yields
an I/O error with `RetryV1`": it does when the closing is seen by a read.  Take any stream on which the
handshake succeeds (`used` is the part it consumes, see `C25_no_byte_lost`), and cut it anywhere before
the end of `used`: the result is an I/O error with `RetryV1`, for every segmentation.

Missing for the full statement: a close that is first seen by a write (next theorem). -/
theorem C33_truncation_partial {A : Api} (hA : A = syncApi ∨ A = asyncApi) (hP : Lawful P)
    (magic : Bytes) (role : Role) (rng : Bytes) (garbage : Option Bytes)
    (decoys : Option (List Bytes)) (bs : Bytes) {r tail : Source} {k : ErrorKind}
    (h1 : Streams false r bs tail) (e1 : EndsWith A.retry tail k) (w w' : Sink) {log : HsLog}
    {i : InboundCipher} {o : OutboundCipher} {s : A.Session}
    (hok : handshake A P prof magic role rng garbage decoys r w = (w', log, .ok (i, o, s))) :
    ∃ used rest, bs = used ++ rest ∧ Readable A s rest k ∧
      ∀ p q r' tail' k', used = p ++ q → q ≠ [] → PeerGone k' → Streams false r' p tail' →
        EndsWith A.retry tail' k' →
        (handshake A P prof magic role rng garbage decoys r' w).2.2 = .err (.io k' .retryV1) := by
  obtain ⟨used, rest, hu, hr, -, ht⟩ :=
    C25_no_byte_lost hA hP magic role rng garbage decoys bs h1 e1 w w' hok
  refine ⟨used, rest, hu, hr, fun p q r' tail' k' hpq hq hk hs he => ?_⟩
  rw [ht p q r' tail' k' hpq hq hs he]
  rcases hk with rfl | rfl | rfl <;> rfl

/-- C33: an honest peer that goes away anywhere before the end of its handshake. -/
theorem C33_honest_peer_gone (hP : Lawful P) {magic rngI rngR : Bytes} {gI gR : Option Bytes}
    {dI dR : Option (List Bytes)} (H : HonestPair P prof magic rngI rngR gI gR dI dR)
    {A : Api} (hA : A = syncApi ∨ A = asyncApi) (w : Sink) (hw : w.Reliable A.retry)
    (src tail : Source) (k : ErrorKind) (hk : PeerGone k) (he : EndsWith A.retry tail k)
    (p q : Bytes) (hq : q ≠ []) (hs : Streams false src p tail) :
    (p ++ q = wireR P magic rngI rngR gR dR →
      (handshake A P prof magic .initiator rngI gI dI src w).2.2 = .err (.io k .retryV1)) ∧
    (p ++ q = wireI P magic rngI rngR gI dI →
      (handshake A P prof magic .responder rngR gR dR src w).2.2 = .err (.io k .retryV1)) := by
  obtain ⟨B⟩ := api_abs hA
  obtain ⟨iI, iR, oI, oR, -, -, fI, fR, -⟩ := honest_pair hP H
  have hk' : ProtocolError.fromIo k = .io k .retryV1 := by rcases hk with rfl | rfl | rfl <;> rfl
  constructor
  · intro hpq
    obtain ⟨w', -, -, hf⟩ := (fI A.retry w hw).2 p q hq hpq
    obtain ⟨-, f⟩ := handshake_flat (prof := prof) B hP he
      ⟨magic, .initiator, rngI, P.ellswift rngI⟩ gI dI src _ hs w
    unfold handshake
    rw [newWithRng_ok H.newI]
    simp only
    rw [hf] at f
    rw [show _ = _ from f, hk']
  · intro hpq
    obtain ⟨w', -, -, hf⟩ := (fR A.retry w hw).2 p q hq hpq
    obtain ⟨-, f⟩ := handshake_flat (prof := prof) B hP he
      ⟨magic, .responder, rngR, P.ellswift rngR⟩ gR dR src _ hs w
    unfold handshake
    rw [newWithRng_ok H.newR]
    simp only
    rw [hf] at f
    rw [show _ = _ from f, hk']

/-- C33, the exception: a peer that closes the connection while we are still writing is seen as
`BrokenPipe` by the write, and that is reported with `Abort`, not `RetryV1`, in both APIs and whatever
has been or would be received. -/
theorem C33_close_seen_by_write {A : Api} (hP : Lawful P) {magic rng : Bytes} {role : Role}
    (garbage : Option Bytes) (hg : (garbage.getD []).length ≤ 4095) (decoys : Option (List Bytes))
    (hn : Spec.UsableKey P prof rng)
    (src : Source) (script : List WEv) (out : Bytes) :
    (handshake A P prof magic role rng garbage decoys src ⟨.fail .brokenPipe :: script, [], out⟩).2.2
      = .err (.io .brokenPipe .abort) := by
  unfold handshake
  rw [newWithRng_ok hn]
  simp only
  unfold handshakeWithInitialized
  have hes := hP.ellswift_length rng
  have hlen : HsInitialized.sendKeyLen garbage = 64 + (garbage.getD []).length := by cases garbage <;> rfl
  have hsk := C18_send_key ⟨magic, role, rng, P.ellswift rng⟩ hes garbage
    (zeros (HsInitialized.sendKeyLen garbage))
  simp only at hsk
  rw [if_neg (by omega), if_neg (by simp; omega)] at hsk
  rw [hsk]
  simp only
  have hsend : ∀ (b : UInt8) (l : Bytes), (Sink.send ⟨.fail .brokenPipe :: script, [], out⟩ A.retry (b :: l))
      = (⟨script, [], out⟩, .error .brokenPipe) := by
    intro b l
    unfold Sink.send Sink.writeAll
    simp only [writeAllGo]
    rw [if_neg (by simp)]
    simp
  cases hb : P.ellswift rng with
  | nil => rw [hb] at hes; cases hes
  | cons b l =>
    simp only [List.cons_append]
    rw [hsend]
    rfl

/-- Beside C33: a truncated honest stream exists, and the write witness too. -/
example : HonestPair toy .debug [1, 2, 3, 4] (leBytes 32 77) (leBytes 32 99)
    (some [42, 42]) none (some [[1, 2, 3], []]) none ∧
    PeerGone .unexpectedEof ∧ EndsWith true [] .unexpectedEof ∧
    (∃ p q, q ≠ [] ∧ p ≠ [] ∧ p ++ q = wireI toy [1, 2, 3, 4] (leBytes 32 77) (leBytes 32 99)
      (some [42, 42]) (some [[1, 2, 3], []]) ∧ Streams false [.data p] p []) := by
  refine ⟨sample_pair, .inr (.inr rfl), .inl ⟨rfl, rfl⟩,
    (wireI toy [1, 2, 3, 4] (leBytes 32 77) (leBytes 32 99) (some [42, 42]) (some [[1, 2, 3], []])).take 70,
    (wireI toy [1, 2, 3, 4] (leBytes 32 77) (leBytes 32 99) (some [42, 42]) (some [[1, 2, 3], []])).drop 70,
    by decide +kernel, by decide +kernel, List.take_append_drop _ _, ?_⟩
  refine ⟨[.data _], ?_, rfl, by simp [Source.bytes]⟩
  intro e he
  simp only [List.mem_cons, List.not_mem_nil, or_false] at he
  subst he
  generalize hp : List.take 70 _ = p
  have : p ≠ [] := by rw [← hp]; decide +kernel
  cases p with
  | nil => exact absurd rfl this
  | cons b bs => exact .inr (.inl ⟨b, bs, rfl⟩)

/-! ## C44: no deadlock -/

/-- Two parties connected by two unbounded byte pipes.  `outI` is what the initiator has put into its
pipe so far, `toR` the pieces the responder's reads have got from it; likewise in the other direction. -/
structure Net where
  outI : Bytes
  outR : Bytes
  toI : List Bytes
  toR : List Bytes

/-- The static data of a run: the APIs used by the two parties and their inputs. -/
structure Setup where
  apiI : Api
  apiR : Api
  magic : Bytes
  rngI : Bytes
  rngR : Bytes
  gI : Option Bytes
  gR : Option Bytes
  dI : Option (List Bytes)
  dR : Option (List Bytes)

/-- A pipe that has delivered these pieces and has nothing more at the moment.  A read that would
have to wait for more is represented by `WouldBlock`, i.e. a run that ends with
`.err (.io .wouldBlock .abort)` is a thread (task) that is blocked (pending) in a read. -/
def pipe (segs : List Bytes) : Source := segs.map .data ++ [.fail .wouldBlock]

/-- Blocked in a read. -/
def blocked {α : Type} : Outcome ProtocolError α := .err (.io .wouldBlock .abort)

/-- The initiator's handshake, run as far as the bytes it has got allow. -/
def Setup.runI (S : Setup) (P : Prims) (prof : Profile) (segs : List Bytes) :=
  handshake S.apiI P prof S.magic .initiator S.rngI S.gI S.dI (pipe segs) ⟨[], [], []⟩

/-- The responder's handshake, run as far as the bytes it has got allow. -/
def Setup.runR (S : Setup) (P : Prims) (prof : Profile) (segs : List Bytes) :=
  handshake S.apiR P prof S.magic .responder S.rngR S.gR S.dR (pipe segs) ⟨[], [], []⟩

/-- One step of the system: a party puts some more bytes of its output into its pipe, or a party's
read gets some more bytes from its pipe. -/
inductive Net.Step (P : Prims) (prof : Profile) (S : Setup) : Net → Net → Prop where
  | writeI (n : Net) (c : Bytes) : c ≠ [] → n.outI ++ c <+: (S.runI P prof n.toI).1.out →
      Net.Step P prof S n { n with outI := n.outI ++ c }
  | writeR (n : Net) (c : Bytes) : c ≠ [] → n.outR ++ c <+: (S.runR P prof n.toR).1.out →
      Net.Step P prof S n { n with outR := n.outR ++ c }
  | readI (n : Net) (c : Bytes) : c ≠ [] → n.toI.flatten ++ c <+: n.outR →
      Net.Step P prof S n { n with toI := n.toI ++ [c] }
  | readR (n : Net) (c : Bytes) : c ≠ [] → n.toR.flatten ++ c <+: n.outI →
      Net.Step P prof S n { n with toR := n.toR ++ [c] }

/-- The initial state: nothing sent. -/
def Net.init : Net := ⟨[], [], [], []⟩

/-- Reachable in `k` steps. -/
inductive Net.Steps (P : Prims) (prof : Profile) (S : Setup) : Nat → Net → Net → Prop where
  | refl (n : Net) : Net.Steps P prof S 0 n n
  | snoc {k : Nat} {a b c : Net} : Net.Steps P prof S k a b → Net.Step P prof S b c →
      Net.Steps P prof S (k + 1) a c

/-- What a pipe delivers. -/
theorem pipe_streams {segs : List Bytes} (h : ∀ c ∈ segs, c ≠ []) :
    Streams false (pipe segs) segs.flatten [.fail .wouldBlock] := by
  refine ⟨segs.map .data, ?_, rfl, ?_⟩
  · intro e he
    obtain ⟨c, hc, rfl⟩ := List.mem_map.1 he
    cases c with
    | nil => exact absurd rfl (h _ hc)
    | cons b bs => exact .inr (.inl ⟨b, bs, rfl⟩)
  · clear h
    induction segs with
    | nil => rfl
    | cons c segs ih => simp [Source.bytes, ih]

theorem pipe_ends (retry : Bool) : EndsWith retry [.fail .wouldBlock] .wouldBlock :=
  .inr (.inr ⟨[], rfl, by simp⟩)

/-- What is known of every reachable state: the pipes hold prefixes of the BIP-324 handshake bytes. -/
structure Net.Inv (wI wR : Bytes) (n : Net) : Prop where
  outI : n.outI <+: wI
  outR : n.outR <+: wR
  toI : n.toI.flatten <+: n.outR
  toR : n.toR.flatten <+: n.outI
  segI : ∀ c ∈ n.toI, c ≠ []
  segR : ∀ c ∈ n.toR, c ≠ []

/-- The number of bytes moved so far. -/
def Net.moved (n : Net) : Nat :=
  n.outI.length + n.outR.length + n.toI.flatten.length + n.toR.flatten.length

section
variable {S : Setup} (hA : (S.apiI = syncApi ∨ S.apiI = asyncApi) ∧ (S.apiR = syncApi ∨ S.apiR = asyncApi))
  (hP : Lawful P) (H : HonestPair P prof S.magic S.rngI S.rngR S.gI S.gR S.dI S.dR)
include hA hP H

/-- How the two parties run on what they have got. -/
theorem C44_runs :
    ∃ (iI iR : InboundCipher) (oI oR : OutboundCipher), Matching oI iR ∧ Matching oR iI ∧
      (∀ segs, (∀ c ∈ segs, c ≠ []) → segs.flatten <+: wireR P S.magic S.rngI S.rngR S.gR S.dR →
        (S.runI P prof segs).1.out <+: wireI P S.magic S.rngI S.rngR S.gI S.dI ∧
        64 ≤ (S.runI P prof segs).1.out.length ∧
        (64 ≤ segs.flatten.length →
          (S.runI P prof segs).1.out = wireI P S.magic S.rngI S.rngR S.gI S.dI) ∧
        ((segs.flatten ≠ wireR P S.magic S.rngI S.rngR S.gR S.dR ∧ (S.runI P prof segs).2.2 = blocked) ∨
          (segs.flatten = wireR P S.magic S.rngI S.rngR S.gR S.dR ∧
            ∃ s, (S.runI P prof segs).2.2 = .ok (iI, oI, s)))) ∧
      (∀ segs, (∀ c ∈ segs, c ≠ []) → segs.flatten <+: wireI P S.magic S.rngI S.rngR S.gI S.dI →
        (S.runR P prof segs).1.out <+: wireR P S.magic S.rngI S.rngR S.gR S.dR ∧
        64 ≤ (S.runR P prof segs).1.out.length ∧
        (64 ≤ segs.flatten.length →
          (S.runR P prof segs).1.out = wireR P S.magic S.rngI S.rngR S.gR S.dR) ∧
        ((segs.flatten ≠ wireI P S.magic S.rngI S.rngR S.gI S.dI ∧ (S.runR P prof segs).2.2 = blocked) ∨
          (segs.flatten = wireI P S.magic S.rngI S.rngR S.gI S.dI ∧
            ∃ s, (S.runR P prof segs).2.2 = .ok (iR, oR, s)))) := by
  obtain ⟨iI, iR, oI, oR, hm1, hm2, fI, fR, -⟩ := honest_pair hP H
  obtain ⟨BI⟩ := api_abs hA.1
  obtain ⟨BR⟩ := api_abs hA.2
  have hrel : ∀ retry, (⟨[], [], []⟩ : Sink).Reliable retry := fun _ => ⟨by simp, by simp⟩
  have eI : ∃ x, wireI P S.magic S.rngI S.rngR S.gI S.dI = P.ellswift S.rngI ++ S.gI.getD [] ++ x :=
    ⟨_, rfl⟩
  have eR : ∃ x, wireR P S.magic S.rngI S.rngR S.gR S.dR = P.ellswift S.rngR ++ S.gR.getD [] ++ x :=
    ⟨_, rfl⟩
  have hesI := hP.ellswift_length S.rngI
  have hesR := hP.ellswift_length S.rngR
  refine ⟨iI, iR, oI, oR, hm1, hm2, ?_, ?_⟩
  · intro segs hseg hpre
    obtain ⟨a, f⟩ := handshake_flat (prof := prof) BI hP (pipe_ends S.apiI.retry)
      ⟨S.magic, .initiator, S.rngI, P.ellswift S.rngI⟩ S.gI S.dI (pipe segs) _ (pipe_streams hseg)
      ⟨[], [], []⟩
    unfold Setup.runI handshake
    rw [newWithRng_ok H.newI]
    simp only
    rw [a]
    obtain ⟨q, hq⟩ := hpre
    by_cases hqn : q = []
    · subst hqn
      rw [List.append_nil] at hq
      obtain ⟨w', -, ho, hf⟩ := (fI S.apiI.retry _ (hrel _)).1 []
      rw [List.append_nil, ← hq] at hf
      rw [hf] at f ⊢
      obtain ⟨s, hx, -⟩ := f
      simp only [List.nil_append] at ho
      refine ⟨by rw [ho]; exact List.prefix_rfl, ?_, fun _ => ho, .inr ⟨hq, s, hx⟩⟩
      obtain ⟨x, hx⟩ := eI
      rw [ho, hx]; simp; omega
    · obtain ⟨w', -, ho, hf⟩ := (fI S.apiI.retry _ (hrel _)).2 _ q hqn hq
      rw [hf] at f ⊢
      simp only [List.nil_append] at ho
      refine ⟨?_, ?_, ?_, .inl ⟨?_, f⟩⟩
      · rw [ho]
        obtain ⟨x, hx⟩ := eI
        split
        · exact ⟨x, hx.symm⟩
        · exact List.prefix_rfl
      · obtain ⟨x, hx⟩ := eI
        simp only
        rw [ho]
        split
        · simp; omega
        · rw [hx]; simp; omega
      · intro h64
        simp only
        rw [ho, if_neg (by omega)]
      · intro he
        rw [← he] at hq
        exact hqn (by simpa using hq)
  · intro segs hseg hpre
    obtain ⟨a, f⟩ := handshake_flat (prof := prof) BR hP (pipe_ends S.apiR.retry)
      ⟨S.magic, .responder, S.rngR, P.ellswift S.rngR⟩ S.gR S.dR (pipe segs) _ (pipe_streams hseg)
      ⟨[], [], []⟩
    unfold Setup.runR handshake
    rw [newWithRng_ok H.newR]
    simp only
    rw [a]
    obtain ⟨q, hq⟩ := hpre
    by_cases hqn : q = []
    · subst hqn
      rw [List.append_nil] at hq
      obtain ⟨w', -, ho, hf⟩ := (fR S.apiR.retry _ (hrel _)).1 []
      rw [List.append_nil, ← hq] at hf
      rw [hf] at f ⊢
      obtain ⟨s, hx, -⟩ := f
      simp only [List.nil_append] at ho
      refine ⟨by rw [ho]; exact List.prefix_rfl, ?_, fun _ => ho, .inr ⟨hq, s, hx⟩⟩
      obtain ⟨x, hx⟩ := eR
      rw [ho, hx]; simp; omega
    · obtain ⟨w', -, ho, hf⟩ := (fR S.apiR.retry _ (hrel _)).2 _ q hqn hq
      rw [hf] at f ⊢
      simp only [List.nil_append] at ho
      refine ⟨?_, ?_, ?_, .inl ⟨?_, f⟩⟩
      · rw [ho]
        obtain ⟨x, hx⟩ := eR
        split
        · exact ⟨x, hx.symm⟩
        · exact List.prefix_rfl
      · obtain ⟨x, hx⟩ := eR
        simp only
        rw [ho]
        split
        · simp; omega
        · rw [hx]; simp; omega
      · intro h64
        simp only
        rw [ho, if_neg (by omega)]
      · intro he
        rw [← he] at hq
        exact hqn (by simpa using hq)

/-- Every reachable state satisfies the invariant, and every step moves at least one byte. -/
theorem net_inv {k : Nat} {n : Net} (h : Net.Steps P prof S k Net.init n) :
    n.Inv (wireI P S.magic S.rngI S.rngR S.gI S.dI) (wireR P S.magic S.rngI S.rngR S.gR S.dR) ∧
      k ≤ n.moved := by
  obtain ⟨iI, iR, oI, oR, -, -, rI, rR⟩ := C44_runs hA hP H
  generalize hi : Net.init = n0 at h
  induction h with
  | refl n => subst hi; exact ⟨⟨List.nil_prefix, List.nil_prefix, List.nil_prefix, List.nil_prefix, by simp [Net.init], by simp [Net.init]⟩, by omega⟩
  | snoc _ st ih =>
    obtain ⟨ih, hk⟩ := ih hi
    cases st with
    | writeI c hc hp =>
      have := (rI _ ih.segI (ih.toI.trans ih.outR)).1
      refine ⟨⟨hp.trans this, ih.outR, ih.toI, ih.toR.trans (List.prefix_append _ _), ih.segI, ih.segR⟩, ?_⟩
      have := List.length_pos_iff.2 hc
      simp only [Net.moved, List.length_append] at hk ⊢; omega
    | writeR c hc hp =>
      have := (rR _ ih.segR (ih.toR.trans ih.outI)).1
      refine ⟨⟨ih.outI, hp.trans this, ih.toI.trans (List.prefix_append _ _), ih.toR, ih.segI, ih.segR⟩, ?_⟩
      have := List.length_pos_iff.2 hc
      simp only [Net.moved, List.length_append] at hk ⊢; omega
    | readI c hc hp =>
      refine ⟨⟨ih.outI, ih.outR, by simpa using hp, ih.toR, ?_, ih.segR⟩, ?_⟩
      · intro x hx
        rcases List.mem_append.1 hx with hx | hx
        · exact ih.segI x hx
        · simp at hx; subst hx; exact hc
      · have := List.length_pos_iff.2 hc
        simp only [Net.moved, List.length_append, List.flatten_append, List.flatten_cons,
          List.flatten_nil, List.append_nil] at hk ⊢; omega
    | readR c hc hp =>
      refine ⟨⟨ih.outI, ih.outR, ih.toI, by simpa using hp, ih.segI, ?_⟩, ?_⟩
      · intro x hx
        rcases List.mem_append.1 hx with hx | hx
        · exact ih.segR x hx
        · simp at hx; subst hx; exact hc
      · have := List.length_pos_iff.2 hc
        simp only [Net.moved, List.length_append, List.flatten_append, List.flatten_cons,
          List.flatten_nil, List.append_nil] at hk ⊢; omega

/-- C44: no reachable state contains a failed party: each is blocked in a read or has finished. -/
theorem C44_no_failure {k : Nat} {n : Net} (h : Net.Steps P prof S k Net.init n) :
    ((S.runI P prof n.toI).2.2 = blocked ∨ ∃ x, (S.runI P prof n.toI).2.2 = .ok x) ∧
    ((S.runR P prof n.toR).2.2 = blocked ∨ ∃ x, (S.runR P prof n.toR).2.2 = .ok x) := by
  obtain ⟨iI, iR, oI, oR, -, -, rI, rR⟩ := C44_runs hA hP H
  obtain ⟨hi, -⟩ := net_inv hA hP H h
  constructor
  · rcases (rI _ hi.segI (hi.toI.trans hi.outR)).2.2.2 with h | ⟨-, s, h⟩
    · exact .inl h.2
    · exact .inr ⟨_, h⟩
  · rcases (rR _ hi.segR (hi.toR.trans hi.outI)).2.2.2 with h | ⟨-, s, h⟩
    · exact .inl h.2
    · exact .inr ⟨_, h⟩

/-- C44: every schedule is finite: its length is at most twice the number of handshake bytes. -/
theorem C44_finite {k : Nat} {n : Net} (h : Net.Steps P prof S k Net.init n) :
    k ≤ 2 * ((wireI P S.magic S.rngI S.rngR S.gI S.dI).length
      + (wireR P S.magic S.rngI S.rngR S.gR S.dR).length) := by
  obtain ⟨hi, hk⟩ := net_inv hA hP H h
  have h1 := hi.outI.length_le
  have h2 := hi.outR.length_le
  have h3 := hi.toI.length_le
  have h4 := hi.toR.length_le
  unfold Net.moved at hk
  omega

/-- C44: a reachable state in which no step is possible is one in which both parties have finished
successfully, with matching ciphers. -/
theorem C44_maximal {k : Nat} {n : Net} (h : Net.Steps P prof S k Net.init n)
    (hmax : ∀ n', ¬ Net.Step P prof S n n') :
    ∃ iI oI sI iR oR sR, (S.runI P prof n.toI).2.2 = .ok (iI, oI, sI) ∧
      (S.runR P prof n.toR).2.2 = .ok (iR, oR, sR) ∧ Matching oI iR ∧ Matching oR iI := by
  obtain ⟨iI, iR, oI, oR, hm1, hm2, rI, rR⟩ := C44_runs hA hP H
  obtain ⟨hi, -⟩ := net_inv hA hP H h
  obtain ⟨pI, lI, fI, resI⟩ := rI _ hi.segI (hi.toI.trans hi.outR)
  obtain ⟨pR, lR, fR, resR⟩ := rR _ hi.segR (hi.toR.trans hi.outI)
  -- both outputs only grow, so what was written is a prefix of what is due
  have prefix_cases : ∀ {a b w : Bytes}, a <+: w → b <+: w → b.length ≤ a.length →
      b <+: a := fun ha hb hl => List.prefix_of_prefix_length_le hb ha hl
  have moreOf : ∀ {a b : Bytes}, a <+: b → a ≠ b → ∃ c, c ≠ [] ∧ a ++ c <+: b := by
    intro a b ⟨c, hc⟩ hne
    refine ⟨c, ?_, by rw [hc]; exact List.prefix_rfl⟩
    rintro rfl
    exact hne (by simpa using hc)
  have hRI : n.toI.flatten = n.outR := by
    by_cases he : n.toI.flatten = n.outR
    · exact he
    · obtain ⟨c, hc, hp⟩ := moreOf hi.toI he
      exact absurd (Net.Step.readI n c hc hp) (hmax _)
  have hRR : n.toR.flatten = n.outI := by
    by_cases he : n.toR.flatten = n.outI
    · exact he
    · obtain ⟨c, hc, hp⟩ := moreOf hi.toR he
      exact absurd (Net.Step.readR n c hc hp) (hmax _)
  have wI : (S.runI P prof n.toI).1.out.length ≤ n.outI.length := by
    by_cases hle : (S.runI P prof n.toI).1.out.length ≤ n.outI.length
    · exact hle
    · have hpre := prefix_cases pI hi.outI (by omega)
      obtain ⟨c, hc, hp⟩ := moreOf hpre (fun e => hle (by rw [e]; exact Nat.le_refl _))
      exact absurd (Net.Step.writeI n c hc hp) (hmax _)
  have wR : (S.runR P prof n.toR).1.out.length ≤ n.outR.length := by
    by_cases hle : (S.runR P prof n.toR).1.out.length ≤ n.outR.length
    · exact hle
    · have hpre := prefix_cases pR hi.outR (by omega)
      obtain ⟨c, hc, hp⟩ := moreOf hpre (fun e => hle (by rw [e]; exact Nat.le_refl _))
      exact absurd (Net.Step.writeR n c hc hp) (hmax _)
  have fullI := fI (by rw [hRI]; omega)
  have fullR := fR (by rw [hRR]; omega)
  have eqI : n.outI = wireI P S.magic S.rngI S.rngR S.gI S.dI :=
    hi.outI.eq_of_length_le (by rw [← fullI]; exact wI)
  have eqR : n.outR = wireR P S.magic S.rngI S.rngR S.gR S.dR :=
    hi.outR.eq_of_length_le (by rw [← fullR]; exact wR)
  rcases resI with ⟨hne, -⟩ | ⟨-, sI, hI⟩
  · exact absurd (hRI.trans eqR) hne
  rcases resR with ⟨hne, -⟩ | ⟨-, sR, hR⟩
  · exact absurd (hRR.trans eqI) hne
  exact ⟨iI, oI, sI, iR, oR, sR, hI, hR, hm1, hm2⟩

/-- C44: no deadlock: in every reachable state in which a party is not finished, some step is
possible. -/
theorem C44_progress {k : Nat} {n : Net} (h : Net.Steps P prof S k Net.init n)
    (hnot : ¬ ((∃ x, (S.runI P prof n.toI).2.2 = .ok x) ∧ ∃ x, (S.runR P prof n.toR).2.2 = .ok x)) :
    ∃ n', Net.Step P prof S n n' := by
  by_cases hex : ∃ n', Net.Step P prof S n n'
  · exact hex
  · refine absurd ?_ hnot
    obtain ⟨iI, oI, sI, iR, oR, sR, h1, h2, -, -⟩ :=
      C44_maximal hA hP H h (fun n' hs => hex ⟨n', hs⟩)
    exact ⟨⟨_, h1⟩, _, h2⟩

end

/-- Beside C44: an honest setup with a synchronous initiator and an asynchronous responder. -/
example : ∃ S : Setup, S.apiI = syncApi ∧ S.apiR = asyncApi ∧ S.gI = some [42, 42] ∧
    HonestPair toy .debug S.magic S.rngI S.rngR S.gI S.gR S.dI S.dR :=
  ⟨⟨syncApi, asyncApi, [1, 2, 3, 4], leBytes 32 77, leBytes 32 99, some [42, 42], none,
    some [[1, 2, 3], []], none⟩, rfl, rfl, rfl, sample_pair⟩

end Bip324
