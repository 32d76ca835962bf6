import Verif.Props.Accounting

/-!
# C56: handshakes over transports with bounded buffers

C44 shows that two handshakes running against each other never deadlock when the transport takes whatever
is written.  Real transports (sockets, in-memory pipes) hold only so many bytes that are not read yet, and
then writes wait.  Both handshake functions (io.rs:318-405, futures.rs:174-248) first write the key and the
garbage, then read the peer's key, then write the terminator, the decoys and the version packet, and only
then read on.  This file determines for exactly which capacities the two handshakes finish.
-/

namespace Bip324

variable {P : Prims} {prof : Profile}

/-- Two parties connected by two channels: the bytes each has written so far, and those each has read. -/
structure BNet where
  outI : Bytes
  outR : Bytes
  toI : Bytes
  toR : Bytes

/-- Nothing sent. -/
def BNet.init : BNet := ⟨[], [], [], []⟩

/-- The bytes of `toI`, one at a time. -/
def bytewise (bs : Bytes) : List Bytes := bs.map ([·])

/-- One step: a party that has bytes to write puts one into its channel, if the channel holds less than its
capacity; a party that has written all it has to and waits in a read takes one byte from its channel.
(Writing or reading several bytes at once is several such steps.) -/
inductive BNet.Step (P : Prims) (prof : Profile) (S : Setup) (capI capR : Nat) : BNet → BNet → Prop where
  | writeI (n : BNet) (b : UInt8) : n.outI ++ [b] <+: (S.runI P prof (bytewise n.toI)).1.out →
      n.outI.length < n.toR.length + capI → BNet.Step P prof S capI capR n { n with outI := n.outI ++ [b] }
  | writeR (n : BNet) (b : UInt8) : n.outR ++ [b] <+: (S.runR P prof (bytewise n.toR)).1.out →
      n.outR.length < n.toI.length + capR → BNet.Step P prof S capI capR n { n with outR := n.outR ++ [b] }
  | readI (n : BNet) (b : UInt8) : n.outI = (S.runI P prof (bytewise n.toI)).1.out →
      (S.runI P prof (bytewise n.toI)).2.2 = blocked → n.toI ++ [b] <+: n.outR →
      BNet.Step P prof S capI capR n { n with toI := n.toI ++ [b] }
  | readR (n : BNet) (b : UInt8) : n.outR = (S.runR P prof (bytewise n.toR)).1.out →
      (S.runR P prof (bytewise n.toR)).2.2 = blocked → n.toR ++ [b] <+: n.outI →
      BNet.Step P prof S capI capR n { n with toR := n.toR ++ [b] }

/-- Reachable in `k` steps. -/
inductive BNet.Steps (P : Prims) (prof : Profile) (S : Setup) (capI capR : Nat) : Nat → BNet → BNet → Prop where
  | refl (n : BNet) : BNet.Steps P prof S capI capR 0 n n
  | snoc {k : Nat} {a b c : BNet} : BNet.Steps P prof S capI capR k a b → BNet.Step P prof S capI capR b c →
      BNet.Steps P prof S capI capR (k + 1) a c

/-- Both handshakes have succeeded. -/
def BNet.Done (P : Prims) (prof : Profile) (S : Setup) (n : BNet) : Prop :=
  (∃ x, (S.runI P prof (bytewise n.toI)).2.2 = .ok x) ∧ ∃ x, (S.runR P prof (bytewise n.toR)).2.2 = .ok x

/-- The first flight of a party: its key and garbage. -/
def firstFlight (garbage : Option Bytes) : Nat := 64 + (garbage.getD []).length

/-- All that a party sends during its handshake: key and garbage, terminator and version packet, decoys. -/
def allFlights (garbage : Option Bytes) (decoys : Option (List Bytes)) : Nat :=
  firstFlight garbage + 36 + ((decoys.getD []).map fun d => d.length + 20).sum

/-- One party can get everything out.  `K` is the length of its first flight, `T` of all its flights, `c`
the capacity of its channel; `K'` and `c'` are those of the other party.  Either its channel holds
everything, or it does so once the other party has read the key, and the other party gets to do that:
because its own first flight fits, or fits once the key is read. -/
def GetsOut (K T c K' c' : Nat) : Prop :=
  T ≤ c ∨ (T ≤ c + 64 ∧ (K' ≤ c' ∨ (K ≤ c ∧ K' ≤ c' + 64)))

/-- The capacities with which the handshakes finish. -/
def Setup.Fits (S : Setup) (capI capR : Nat) : Prop :=
  GetsOut (firstFlight S.gI) (allFlights S.gI S.dI) capI (firstFlight S.gR) capR ∨
  GetsOut (firstFlight S.gR) (allFlights S.gR S.dR) capR (firstFlight S.gI) capI

theorem bytewise_flatten (bs : Bytes) : (bytewise bs).flatten = bs := by
  induction bs with
  | nil => rfl
  | cons b bs ih =>
    show [b] ++ (bytewise bs).flatten = b :: bs
    rw [ih]; rfl

theorem bytewise_ne (bs : Bytes) : ∀ c ∈ bytewise bs, c ≠ [] := by
  intro c hc
  obtain ⟨b, -, rfl⟩ := List.mem_map.1 hc
  simp

theorem prefix_snoc {a w : Bytes} (h : a <+: w) (hl : a.length < w.length) : ∃ b, a ++ [b] <+: w := by
  obtain ⟨c, hc⟩ := h
  cases c with
  | nil => simp only [List.append_nil] at hc; subst hc; omega
  | cons b c => exact ⟨b, c, by rw [← hc]; simp⟩

section
variable {S : Setup} (hA : (S.apiI = syncApi ∨ S.apiI = asyncApi) ∧ (S.apiR = syncApi ∨ S.apiR = asyncApi))
  (hP : Lawful P) (H : HonestPair P prof S.magic S.rngI S.rngR S.gI S.gR S.dI S.dR)
include hP H

/-- The number of bytes of the handshakes. -/
theorem wire_lengths :
    (wireI P S.magic S.rngI S.rngR S.gI S.dI).length = allFlights S.gI S.dI ∧
    (wireR P S.magic S.rngI S.rngR S.gR S.dR).length = allFlights S.gR S.dR := by
  obtain ⟨K, h1, -, -, -, -, h6, h7⟩ := pair_keys hP H.newI.1 H.newR.1
    H.magicI H.magicR
  have e1 := C20_exact_length hP K .initiator S.gI (S.dI.getD []) (h1 _) H.countI
  have e2 := C20_exact_length hP K .responder S.gR (S.dR.getD []) (h1 _) H.countR
  rw [h6, h7]
  constructor
  · rw [List.length_append, List.length_append, hP.ellswift_length]
    erw [e1]
    simp only [allFlights, firstFlight]; omega
  · rw [List.length_append, List.length_append, hP.ellswift_length]
    erw [e2]
    simp only [allFlights, firstFlight]; omega

include hA

/-- How many bytes each party has to write, and whether it waits or has finished, given the bytes it has
read. -/
theorem bounded_runs :
    ∃ (iI iR : InboundCipher) (oI oR : OutboundCipher), Matching oI iR ∧ Matching oR iI ∧
      (∀ bs, bs <+: wireR P S.magic S.rngI S.rngR S.gR S.dR →
        (S.runI P prof (bytewise bs)).1.out <+: wireI P S.magic S.rngI S.rngR S.gI S.dI ∧
        (S.runI P prof (bytewise bs)).1.out.length
          = (if bs.length < 64 then firstFlight S.gI else allFlights S.gI S.dI) ∧
        ((bs.length < allFlights S.gR S.dR ∧ (S.runI P prof (bytewise bs)).2.2 = blocked) ∨
          (bs.length = allFlights S.gR S.dR ∧ ∃ s, (S.runI P prof (bytewise bs)).2.2 = .ok (iI, oI, s)))) ∧
      (∀ bs, bs <+: wireI P S.magic S.rngI S.rngR S.gI S.dI →
        (S.runR P prof (bytewise bs)).1.out <+: wireR P S.magic S.rngI S.rngR S.gR S.dR ∧
        (S.runR P prof (bytewise bs)).1.out.length
          = (if bs.length < 64 then firstFlight S.gR else allFlights S.gR S.dR) ∧
        ((bs.length < allFlights S.gI S.dI ∧ (S.runR P prof (bytewise bs)).2.2 = blocked) ∨
          (bs.length = allFlights S.gI S.dI ∧ ∃ s, (S.runR P prof (bytewise bs)).2.2 = .ok (iR, oR, s)))) := by
  obtain ⟨lI, lR⟩ := wire_lengths hP H
  obtain ⟨iI, iR, oI, oR, hm1, hm2, fI, fR, -⟩ := honest_pair hP H
  obtain ⟨BI⟩ := api_abs hA.1
  obtain ⟨BR⟩ := api_abs hA.2
  have hrel : ∀ retry, (⟨[], [], []⟩ : Sink).Reliable retry := fun _ => ⟨by simp, by simp⟩
  have hesI := hP.ellswift_length S.rngI
  have hesR := hP.ellswift_length S.rngR
  refine ⟨iI, iR, oI, oR, hm1, hm2, ?_, ?_⟩
  · intro bs hpre
    obtain ⟨a, f⟩ := handshake_flat (prof := prof) BI hP (pipe_ends S.apiI.retry)
      ⟨S.magic, .initiator, S.rngI, P.ellswift S.rngI⟩ S.gI S.dI (pipe (bytewise bs)) _
      (pipe_streams (bytewise_ne bs)) ⟨[], [], []⟩
    rw [bytewise_flatten] at a f
    unfold Setup.runI handshake
    rw [newWithRng_ok H.newI]
    simp only
    rw [a]
    obtain ⟨q, hq⟩ := hpre
    have hlen := congrArg List.length hq
    rw [List.length_append, lR] at hlen
    by_cases hqn : q = []
    · subst hqn
      rw [List.append_nil] at hq
      simp only [List.length_nil] at hlen
      obtain ⟨w', -, ho, hf⟩ := (fI S.apiI.retry _ (hrel _)).1 []
      rw [List.append_nil, ← hq] at hf
      rw [hf] at f ⊢
      obtain ⟨s, hx, -⟩ := f
      simp only [List.nil_append] at ho
      refine ⟨by rw [ho]; exact List.prefix_rfl, ?_, .inr ⟨by omega, s, hx⟩⟩
      have : ¬ bs.length < 64 := by simp only [allFlights, firstFlight] at hlen; omega
      simp only
      rw [ho, lI, if_neg this]
    · obtain ⟨w', -, ho, hf⟩ := (fI S.apiI.retry _ (hrel _)).2 _ q hqn hq
      rw [hf] at f ⊢
      simp only [List.nil_append] at ho
      have := List.length_pos_iff.2 hqn
      refine ⟨?_, ?_, .inl ⟨by omega, f⟩⟩
      · simp only
        rw [ho]
        split
        · exact ⟨_, rfl⟩
        · exact List.prefix_rfl
      · simp only
        rw [ho]
        split
        · simp only [List.length_append, firstFlight]; omega
        · exact lI
  · intro bs hpre
    obtain ⟨a, f⟩ := handshake_flat (prof := prof) BR hP (pipe_ends S.apiR.retry)
      ⟨S.magic, .responder, S.rngR, P.ellswift S.rngR⟩ S.gR S.dR (pipe (bytewise bs)) _
      (pipe_streams (bytewise_ne bs)) ⟨[], [], []⟩
    rw [bytewise_flatten] at a f
    unfold Setup.runR handshake
    rw [newWithRng_ok H.newR]
    simp only
    rw [a]
    obtain ⟨q, hq⟩ := hpre
    have hlen := congrArg List.length hq
    rw [List.length_append, lI] at hlen
    by_cases hqn : q = []
    · subst hqn
      rw [List.append_nil] at hq
      simp only [List.length_nil] at hlen
      obtain ⟨w', -, ho, hf⟩ := (fR S.apiR.retry _ (hrel _)).1 []
      rw [List.append_nil, ← hq] at hf
      rw [hf] at f ⊢
      obtain ⟨s, hx, -⟩ := f
      simp only [List.nil_append] at ho
      refine ⟨by rw [ho]; exact List.prefix_rfl, ?_, .inr ⟨by omega, s, hx⟩⟩
      have : ¬ bs.length < 64 := by simp only [allFlights, firstFlight] at hlen; omega
      simp only
      rw [ho, lR, if_neg this]
    · obtain ⟨w', -, ho, hf⟩ := (fR S.apiR.retry _ (hrel _)).2 _ q hqn hq
      rw [hf] at f ⊢
      simp only [List.nil_append] at ho
      have := List.length_pos_iff.2 hqn
      refine ⟨?_, ?_, .inl ⟨by omega, f⟩⟩
      · simp only
        rw [ho]
        split
        · exact ⟨_, rfl⟩
        · exact List.prefix_rfl
      · simp only
        rw [ho]
        split
        · simp only [List.length_append, firstFlight]; omega
        · exact lR

end

/-- What is known of every reachable state. -/
structure BNet.Inv (wI wR : Bytes) (KI KR capI capR : Nat) (n : BNet) : Prop where
  outI : n.outI <+: wI
  outR : n.outR <+: wR
  toI : n.toI <+: n.outR
  toR : n.toR <+: n.outI
  /-- The channels do not hold more than their capacity. -/
  roomI : n.outI.length ≤ n.toR.length + capI
  roomR : n.outR.length ≤ n.toI.length + capR
  /-- A party that has read something has sent its first flight, one that has read more than 64 bytes has
  sent everything. -/
  firstI : 0 < n.toI.length → KI ≤ n.outI.length
  firstR : 0 < n.toR.length → KR ≤ n.outR.length
  allI : 64 < n.toI.length → n.outI = wI
  allR : 64 < n.toR.length → n.outR = wR
  /-- Nobody sends more than the first flight before having read 64 bytes. -/
  dueI : n.toI.length < 64 → n.outI.length ≤ KI
  dueR : n.toR.length < 64 → n.outR.length ≤ KR
  /-- The first to read was able to send its first flight without the other reading. -/
  start : 0 < n.toI.length ∨ 0 < n.toR.length → KI ≤ capI ∨ KR ≤ capR

section
variable {S : Setup} (hA : (S.apiI = syncApi ∨ S.apiI = asyncApi) ∧ (S.apiR = syncApi ∨ S.apiR = asyncApi))
  (hP : Lawful P) (H : HonestPair P prof S.magic S.rngI S.rngR S.gI S.gR S.dI S.dR) {capI capR : Nat}
include hA hP H

theorem bnet_inv {k : Nat} {n : BNet} (h : BNet.Steps P prof S capI capR k BNet.init n) :
    n.Inv (wireI P S.magic S.rngI S.rngR S.gI S.dI) (wireR P S.magic S.rngI S.rngR S.gR S.dR)
      (firstFlight S.gI) (firstFlight S.gR) capI capR ∧
      k = n.outI.length + n.outR.length + n.toI.length + n.toR.length := by
  obtain ⟨iI, iR, oI, oR, -, -, rI, rR⟩ := bounded_runs hA hP H
  obtain ⟨lI, lR⟩ := wire_lengths hP H
  generalize hi : BNet.init = n0 at h
  induction h with
  | refl n =>
    subst hi
    exact ⟨⟨List.nil_prefix, List.nil_prefix, List.nil_prefix, List.nil_prefix, by simp [BNet.init],
      by simp [BNet.init], by simp [BNet.init], by simp [BNet.init], by simp [BNet.init], by simp [BNet.init],
      by simp [BNet.init], by simp [BNet.init], by simp [BNet.init]⟩, rfl⟩
  | @snoc k a n c _ st ih =>
    obtain ⟨ih, hk⟩ := ih hi
    obtain ⟨pI, dI, sI⟩ := rI _ (ih.toI.trans ih.outR)
    obtain ⟨pR, dR, sR⟩ := rR _ (ih.toR.trans ih.outI)
    have l1 := ih.outI.length_le
    have l2 := ih.outR.length_le
    have l3 := ih.toI.length_le
    have l4 := ih.toR.length_le
    have i1 := ih.roomI
    have i2 := ih.roomR
    have i3 := ih.firstI
    have i4 := ih.firstR
    have i7 := ih.dueI
    have i8 := ih.dueR
    have i9 := ih.start
    cases st with
    | writeI b hp hroom =>
      have hl := hp.length_le
      rw [dI, List.length_append, List.length_singleton] at hl
      refine ⟨⟨hp.trans pI, ih.outR, ih.toI, ih.toR.trans (List.prefix_append _ _), ?_, ih.roomR, ?_, ih.firstR,
        ?_, ih.allR, ?_, ih.dueR, ih.start⟩, ?_⟩
      · simp only [List.length_append, List.length_singleton]; omega
      · intro h0
        have := i3 h0
        simp only [List.length_append, List.length_singleton]; omega
      · intro h64
        have h1 := congrArg List.length (ih.allI h64)
        have h2 := (hp.trans pI).length_le
        rw [List.length_append, List.length_singleton] at h2
        omega
      · intro h64
        have h64' : n.toI.length < 64 := h64
        rw [if_pos h64'] at hl
        simp only [List.length_append, List.length_singleton]; exact hl
      · simp only [List.length_append, List.length_singleton]; omega
    | writeR b hp hroom =>
      have hl := hp.length_le
      rw [dR, List.length_append, List.length_singleton] at hl
      refine ⟨⟨ih.outI, hp.trans pR, ih.toI.trans (List.prefix_append _ _), ih.toR, ih.roomI, ?_, ih.firstI, ?_,
        ih.allI, ?_, ih.dueI, ?_, ih.start⟩, ?_⟩
      · simp only [List.length_append, List.length_singleton]; omega
      · intro h0
        have := i4 h0
        simp only [List.length_append, List.length_singleton]; omega
      · intro h64
        have h1 := congrArg List.length (ih.allR h64)
        have h2 := (hp.trans pR).length_le
        rw [List.length_append, List.length_singleton] at h2
        omega
      · intro h64
        have h64' : n.toR.length < 64 := h64
        rw [if_pos h64'] at hl
        simp only [List.length_append, List.length_singleton]; exact hl
      · simp only [List.length_append, List.length_singleton]; omega
    | readI b hout hblk hp =>
      have hl := congrArg List.length hout
      rw [dI] at hl
      have hKT : firstFlight S.gI ≤ allFlights S.gI S.dI := by simp only [allFlights]; omega
      refine ⟨⟨ih.outI, ih.outR, hp, ih.toR, ih.roomI, ?_, ?_, ih.firstR, ?_, ih.allR, ?_, ih.dueR, ?_⟩, ?_⟩
      · simp only [List.length_append, List.length_singleton]; omega
      · intro _
        show firstFlight S.gI ≤ n.outI.length
        split at hl <;> omega
      · intro h64
        simp only [List.length_append, List.length_singleton] at h64
        rw [if_neg (by omega), ← lI] at hl
        exact ih.outI.eq_of_length hl
      · intro h64
        simp only [List.length_append, List.length_singleton] at h64
        exact i7 (by omega)
      · intro _
        by_cases h0 : 0 < n.toI.length ∨ 0 < n.toR.length
        · exact i9 h0
        · rw [if_pos (by omega)] at hl
          exact .inl (by omega)
      · simp only [List.length_append, List.length_singleton]; omega
    | readR b hout hblk hp =>
      have hl := congrArg List.length hout
      rw [dR] at hl
      have hKT : firstFlight S.gR ≤ allFlights S.gR S.dR := by simp only [allFlights]; omega
      refine ⟨⟨ih.outI, ih.outR, ih.toI, hp, ?_, ih.roomR, ih.firstI, ?_, ih.allI, ?_, ih.dueI, ?_, ?_⟩, ?_⟩
      · simp only [List.length_append, List.length_singleton]; omega
      · intro _
        show firstFlight S.gR ≤ n.outR.length
        split at hl <;> omega
      · intro h64
        simp only [List.length_append, List.length_singleton] at h64
        rw [if_neg (by omega), ← lR] at hl
        exact ih.outR.eq_of_length hl
      · intro h64
        simp only [List.length_append, List.length_singleton] at h64
        exact i8 (by omega)
      · intro _
        by_cases h0 : 0 < n.toI.length ∨ 0 < n.toR.length
        · exact i9 h0
        · rw [if_pos (by omega)] at hl
          exact .inr (by omega)
      · simp only [List.length_append, List.length_singleton]; omega

/-- C56: every schedule is finite. -/
theorem C56_finite {k : Nat} {n : BNet} (h : BNet.Steps P prof S capI capR k BNet.init n) :
    k ≤ 2 * (allFlights S.gI S.dI + allFlights S.gR S.dR) := by
  obtain ⟨hi, hk⟩ := bnet_inv hA hP H h
  obtain ⟨lI, lR⟩ := wire_lengths hP H
  have h1 := hi.outI.length_le
  have h2 := hi.outR.length_le
  have h3 := hi.toI.length_le
  have h4 := hi.toR.length_le
  omega

/-- C56: when no step is possible, each party either waits to write into a full channel, or waits to read
from an empty one, or has finished. -/
theorem bnet_stuck {k : Nat} {n : BNet} (h : BNet.Steps P prof S capI capR k BNet.init n)
    (hmax : ∀ n', ¬ BNet.Step P prof S capI capR n n') :
    let dueI := if n.toI.length < 64 then firstFlight S.gI else allFlights S.gI S.dI
    let dueR := if n.toR.length < 64 then firstFlight S.gR else allFlights S.gR S.dR
    ((n.outI.length < dueI ∧ n.outI.length = n.toR.length + capI) ∨
      (n.outI.length = dueI ∧ (n.toI.length = n.outR.length ∨ n.toI.length = allFlights S.gR S.dR))) ∧
    ((n.outR.length < dueR ∧ n.outR.length = n.toI.length + capR) ∨
      (n.outR.length = dueR ∧ (n.toR.length = n.outI.length ∨ n.toR.length = allFlights S.gI S.dI))) := by
  obtain ⟨iI, iR, oI, oR, -, -, rI, rR⟩ := bounded_runs hA hP H
  obtain ⟨hi, -⟩ := bnet_inv hA hP H h
  obtain ⟨lI, lR⟩ := wire_lengths hP H
  obtain ⟨pI, dI, sI⟩ := rI _ (hi.toI.trans hi.outR)
  obtain ⟨pR, dR, sR⟩ := rR _ (hi.toR.trans hi.outI)
  have i1 := hi.roomI
  have i2 := hi.roomR
  have hKI : firstFlight S.gI ≤ allFlights S.gI S.dI := by simp only [allFlights]; omega
  have hKR : firstFlight S.gR ≤ allFlights S.gR S.dR := by simp only [allFlights]; omega
  constructor
  · rw [← dI]
    have hle : n.outI.length ≤ (S.runI P prof (bytewise n.toI)).1.out.length := by
      rw [dI]
      by_cases h64 : n.toI.length < 64
      · rw [if_pos h64]; exact hi.dueI h64
      · rw [if_neg h64, ← lI]; exact hi.outI.length_le
    have hpre := List.prefix_of_prefix_length_le hi.outI pI hle
    by_cases hlt : n.outI.length < (S.runI P prof (bytewise n.toI)).1.out.length
    · left
      refine ⟨hlt, ?_⟩
      by_cases hroom : n.outI.length < n.toR.length + capI
      · obtain ⟨b, hb⟩ := prefix_snoc hpre hlt
        exact absurd (BNet.Step.writeI n b hb hroom) (hmax _)
      · omega
    · right
      have heq := hpre.eq_of_length (by omega)
      refine ⟨by omega, ?_⟩
      rcases sI with ⟨-, hb⟩ | ⟨hl, -⟩
      · left
        by_cases hlt2 : n.toI.length < n.outR.length
        · obtain ⟨b, hb'⟩ := prefix_snoc hi.toI hlt2
          exact absurd (BNet.Step.readI n b heq hb hb') (hmax _)
        · have := hi.toI.length_le; omega
      · exact .inr hl
  · rw [← dR]
    have hle : n.outR.length ≤ (S.runR P prof (bytewise n.toR)).1.out.length := by
      rw [dR]
      by_cases h64 : n.toR.length < 64
      · rw [if_pos h64]; exact hi.dueR h64
      · rw [if_neg h64, ← lR]; exact hi.outR.length_le
    have hpre := List.prefix_of_prefix_length_le hi.outR pR hle
    by_cases hlt : n.outR.length < (S.runR P prof (bytewise n.toR)).1.out.length
    · left
      refine ⟨hlt, ?_⟩
      by_cases hroom : n.outR.length < n.toI.length + capR
      · obtain ⟨b, hb⟩ := prefix_snoc hpre hlt
        exact absurd (BNet.Step.writeR n b hb hroom) (hmax _)
      · omega
    · right
      have heq := hpre.eq_of_length (by omega)
      refine ⟨by omega, ?_⟩
      rcases sR with ⟨-, hb⟩ | ⟨hl, -⟩
      · left
        by_cases hlt2 : n.toR.length < n.outI.length
        · obtain ⟨b, hb'⟩ := prefix_snoc hi.toR hlt2
          exact absurd (BNet.Step.readR n b heq hb hb') (hmax _)
        · have := hi.toR.length_le; omega
      · exact .inr hl

/-- C56, the channels are large enough: every schedule that cannot be continued has ended with both parties
done, with matching ciphers. -/
theorem C56_finishes (hcI : 0 < capI) (hcR : 0 < capR)
    (hfit : S.Fits capI capR)
    {k : Nat} {n : BNet} (h : BNet.Steps P prof S capI capR k BNet.init n)
    (hmax : ∀ n', ¬ BNet.Step P prof S capI capR n n') :
    ∃ iI oI sI iR oR sR, (S.runI P prof (bytewise n.toI)).2.2 = .ok (iI, oI, sI) ∧
      (S.runR P prof (bytewise n.toR)).2.2 = .ok (iR, oR, sR) ∧ Matching oI iR ∧ Matching oR iI := by
  obtain ⟨iI, iR, oI, oR, hm1, hm2, rI, rR⟩ := bounded_runs hA hP H
  obtain ⟨hi, -⟩ := bnet_inv hA hP H h
  obtain ⟨lI, lR⟩ := wire_lengths hP H
  obtain ⟨-, -, sI⟩ := rI _ (hi.toI.trans hi.outR)
  obtain ⟨-, -, sR⟩ := rR _ (hi.toR.trans hi.outI)
  obtain ⟨stI, stR⟩ := bnet_stuck hA hP H h hmax
  have h1 := hi.outI.length_le
  have h2 := hi.outR.length_le
  have h3 := hi.toI.length_le
  have h4 := hi.toR.length_le
  have hKI : firstFlight S.gI < allFlights S.gI S.dI ∧ 64 ≤ firstFlight S.gI := by
    simp only [allFlights, firstFlight]; omega
  have hKR : firstFlight S.gR < allFlights S.gR S.dR ∧ 64 ≤ firstFlight S.gR := by
    simp only [allFlights, firstFlight]; omega
  have aI : 64 < n.toI.length → n.outI.length = allFlights S.gI S.dI :=
    fun h => by rw [hi.allI h, lI]
  have aR : 64 < n.toR.length → n.outR.length = allFlights S.gR S.dR :=
    fun h => by rw [hi.allR h, lR]
  have fI := hi.firstI
  have fR := hi.firstR
  rw [lI] at h1
  rw [lR] at h2
  have hdone : n.toI.length = allFlights S.gR S.dR ∧ n.toR.length = allFlights S.gI S.dI := by
    unfold Setup.Fits GetsOut at hfit
    generalize n.toI.length = a at *
    generalize n.toR.length = b at *
    generalize n.outI.length = c at *
    generalize n.outR.length = d at *
    generalize firstFlight S.gI = KI at *
    generalize firstFlight S.gR = KR at *
    generalize allFlights S.gI S.dI = TI at *
    generalize allFlights S.gR S.dR = TR at *
    clear rI rR sI sR hi lI lR hmax h
    by_cases ha : a < 64 <;> by_cases hb : b < 64 <;>
      simp only [ha, hb, if_true, if_false] at stI stR <;> omega
  rcases sI with ⟨hl, -⟩ | ⟨-, sI, hI⟩
  · omega
  rcases sR with ⟨hl, -⟩ | ⟨-, sR, hR⟩
  · omega
  exact ⟨iI, oI, sI, iR, oR, sR, hI, hR, hm1, hm2⟩

/-- C56, the channels are too small: no schedule brings either party to the end of its handshake; neither
even takes more than the peer's key out of its channel. -/
theorem C56_never_finishes (hfit : ¬ S.Fits capI capR)
    {k : Nat} {n : BNet} (h : BNet.Steps P prof S capI capR k BNet.init n) :
    n.toI.length ≤ 64 ∧ n.toR.length ≤ 64 ∧ (S.runI P prof (bytewise n.toI)).2.2 = blocked ∧
      (S.runR P prof (bytewise n.toR)).2.2 = blocked := by
  obtain ⟨iI, iR, oI, oR, -, -, rI, rR⟩ := bounded_runs hA hP H
  obtain ⟨lI, lR⟩ := wire_lengths hP H
  have hKI : firstFlight S.gI + 36 ≤ allFlights S.gI S.dI ∧ 64 ≤ firstFlight S.gI := by
    simp only [allFlights, firstFlight]; omega
  have hKR : firstFlight S.gR + 36 ≤ allFlights S.gR S.dR ∧ 64 ≤ firstFlight S.gR := by
    simp only [allFlights, firstFlight]; omega
  have key : n.toI.length ≤ 64 ∧ n.toR.length ≤ 64 := by
    unfold Setup.Fits GetsOut at hfit
    generalize hi0 : BNet.init = n0 at h
    induction h with
    | refl n => subst hi0; exact ⟨by simp [BNet.init], by simp [BNet.init]⟩
    | @snoc k a n c hsteps st ih =>
      subst hi0
      obtain ⟨b1, b2⟩ := ih rfl
      obtain ⟨hi, -⟩ := bnet_inv hA hP H hsteps
      obtain ⟨-, dI, sI⟩ := rI _ (hi.toI.trans hi.outR)
      obtain ⟨-, dR, sR⟩ := rR _ (hi.toR.trans hi.outI)
      have i1 := hi.roomI
      have i2 := hi.roomR
      have i3 := hi.firstI
      have i4 := hi.firstR
      have i9 := hi.start
      cases st with
      | writeI b hp hroom => exact ⟨b1, b2⟩
      | writeR b hp hroom => exact ⟨b1, b2⟩
      | readI b hout hblk hp =>
        have hl := congrArg List.length hout
        rw [dI] at hl
        refine ⟨?_, b2⟩
        simp only [List.length_append, List.length_singleton]
        by_cases h64 : n.toI.length < 64
        · omega
        · rw [if_neg h64] at hl
          exfalso
          clear hp hblk hout dI dR sI sR rI rR hsteps
          have i9' := i9 (.inl (by omega))
          by_cases h0 : 0 < n.toR.length
          · have := i4 h0
            omega
          · omega
      | readR b hout hblk hp =>
        have hl := congrArg List.length hout
        rw [dR] at hl
        refine ⟨b1, ?_⟩
        simp only [List.length_append, List.length_singleton]
        by_cases h64 : n.toR.length < 64
        · omega
        · rw [if_neg h64] at hl
          exfalso
          clear hp hblk hout dI dR sI sR rI rR hsteps
          have i9' := i9 (.inr (by omega))
          by_cases h0 : 0 < n.toI.length
          · have := i3 h0
            omega
          · omega
  obtain ⟨hi, -⟩ := bnet_inv hA hP H h
  obtain ⟨-, -, sI⟩ := rI _ (hi.toI.trans hi.outR)
  obtain ⟨-, -, sR⟩ := rR _ (hi.toR.trans hi.outI)
  refine ⟨key.1, key.2, ?_, ?_⟩
  · rcases sI with ⟨-, h⟩ | ⟨hl, -⟩
    · exact h
    · omega
  · rcases sR with ⟨-, h⟩ | ⟨hl, -⟩
    · exact h
    · omega

/-- Every schedule can be continued to one that cannot be continued. -/
theorem bnet_maximal {k : Nat} {n : BNet} (h : BNet.Steps P prof S capI capR k BNet.init n) :
    ∃ k' n', BNet.Steps P prof S capI capR k' BNet.init n' ∧ ∀ n'', ¬ BNet.Step P prof S capI capR n' n'' := by
  generalize hm : 2 * (allFlights S.gI S.dI + allFlights S.gR S.dR) - k = m
  induction m generalizing k n with
  | zero =>
    refine ⟨k, n, h, fun n'' hst => ?_⟩
    have h1 := C56_finite hA hP H (.snoc h hst)
    omega
  | succ m ih =>
    by_cases hst : ∃ n'', BNet.Step P prof S capI capR n n''
    · obtain ⟨n'', hst⟩ := hst
      exact ih (.snoc h hst) (by omega)
    · exact ⟨k, n, h, fun n'' hs => hst ⟨n'', hs⟩⟩

/-- C56: the exact condition.  With channels that can hold at least one byte, two honest parties can finish
their handshakes if and only if the capacities fit; and then every schedule leads there. -/
theorem C56_iff (hcI : 0 < capI) (hcR : 0 < capR) :
    ((∃ k n, BNet.Steps P prof S capI capR k BNet.init n ∧ n.Done P prof S) ↔ S.Fits capI capR) ∧
    (S.Fits capI capR → ∀ k n, BNet.Steps P prof S capI capR k BNet.init n →
      (∀ n', ¬ BNet.Step P prof S capI capR n n') → n.Done P prof S) ∧
    (¬ S.Fits capI capR → ∃ k n, BNet.Steps P prof S capI capR k BNet.init n ∧
      (∀ n', ¬ BNet.Step P prof S capI capR n n') ∧ ¬ n.Done P prof S) := by
  have bwd : S.Fits capI capR → ∀ k n, BNet.Steps P prof S capI capR k BNet.init n →
      (∀ n', ¬ BNet.Step P prof S capI capR n n') → n.Done P prof S := by
    intro hfit k n h hmax
    obtain ⟨iI, oI, sI, iR, oR, sR, h1, h2, -, -⟩ := C56_finishes hA hP H hcI hcR hfit h hmax
    exact ⟨⟨_, h1⟩, _, h2⟩
  obtain ⟨k, n, h, hmax⟩ := bnet_maximal (capI := capI) (capR := capR) hA hP H (.refl BNet.init)
  refine ⟨⟨?_, fun hfit => ⟨k, n, h, bwd hfit k n h hmax⟩⟩, bwd, fun hnot => ⟨k, n, h, hmax, ?_⟩⟩
  · rintro ⟨k, n, h, ⟨x, hx⟩, -⟩
    by_cases h1 : S.Fits capI capR
    · exact h1
    · have := (C56_never_finishes hA hP H h1 h).2.2.1
      rw [hx] at this
      cases this
  · rintro ⟨⟨x, hx⟩, -⟩
    have := (C56_never_finishes hA hP H hnot h).2.2.1
    rw [hx] at this
    cases this

/-- C56, in practice: it is enough that one of the two channels holds all that its sender has to send. -/
theorem C56_one_side (hcI : 0 < capI) (hcR : 0 < capR)
    (hbig : allFlights S.gI S.dI ≤ capI ∨ allFlights S.gR S.dR ≤ capR)
    {k : Nat} {n : BNet} (h : BNet.Steps P prof S capI capR k BNet.init n)
    (hmax : ∀ n', ¬ BNet.Step P prof S capI capR n n') : n.Done P prof S := by
  obtain ⟨iI, oI, sI, iR, oR, sR, h1, h2, -, -⟩ := C56_finishes hA hP H hcI hcR
    (hbig.imp .inl .inl) h hmax
  exact ⟨⟨_, h1⟩, _, h2⟩

/-- C56, the first deadlock: both parties have more garbage than the channels hold beside their keys.
Nothing is ever read. -/
theorem C56_garbage_deadlock (hI : capI < firstFlight S.gI) (hR : capR < firstFlight S.gR)
    {k : Nat} {n : BNet} (h : BNet.Steps P prof S capI capR k BNet.init n) :
    n.toI = [] ∧ n.toR = [] ∧ ¬ n.Done P prof S := by
  obtain ⟨hi, -⟩ := bnet_inv hA hP H h
  have := hi.start
  have h1 : n.toI.length = 0 := by omega
  have h2 : n.toR.length = 0 := by omega
  refine ⟨List.length_eq_zero_iff.1 h1, List.length_eq_zero_iff.1 h2, ?_⟩
  rintro ⟨⟨x, hx⟩, -⟩
  have hKI : firstFlight S.gI < allFlights S.gI S.dI := by simp only [allFlights]; omega
  have hKR : firstFlight S.gR < allFlights S.gR S.dR := by simp only [allFlights]; omega
  have := (C56_never_finishes hA hP H (capI := capI) (capR := capR) (by unfold Setup.Fits GetsOut; omega) h).2.2.1
  rw [hx] at this
  cases this

/-- C56, the second deadlock: both parties have decoys that the channels cannot hold. -/
theorem C56_decoy_deadlock (hI : capI + 64 < allFlights S.gI S.dI) (hR : capR + 64 < allFlights S.gR S.dR)
    {k : Nat} {n : BNet} (h : BNet.Steps P prof S capI capR k BNet.init n) : ¬ n.Done P prof S := by
  rintro ⟨⟨x, hx⟩, -⟩
  have := (C56_never_finishes hA hP H (capI := capI) (capR := capR) (by unfold Setup.Fits GetsOut; omega) h).2.2.1
  rw [hx] at this
  cases this

end

/-- C56, shaped connections: whatever the shaper draws, 7327 bytes of room in one of the directions are
enough; without shaping 100 are. -/
theorem C56_shaped_room {R : Rng} {s s' : Shaper R} {g : Option Bytes} {d : Option (List Bytes)} {rec : List Nat}
    (h : s.handshake = (s', g, d, rec)) :
    allFlights g d ≤ 7327 ∧ (s.config.padding = .disabled → s.config.decoy = .disabled → allFlights g d = 100) := by
  obtain ⟨h1, h2, h3, h4, h5⟩ := C37_handshake h
  constructor
  · have hs : ∀ l : List Bytes, (∀ x ∈ l, 1 ≤ x.length ∧ x.length ≤ 1024) →
        (l.map fun x => x.length + 20).sum ≤ 1044 * l.length := by
      intro l hl
      induction l with
      | nil => simp
      | cons x l ih =>
        have := hl x (by simp)
        have := ih (fun y hy => hl y (by simp [hy]))
        simp only [List.map_cons, List.sum_cons, List.length_cons]; omega
    have := hs _ h3
    simp only [allFlights, firstFlight]; omega
  · intro hp hd
    rw [h4.1 hp, h5.1 hd]; rfl

/-- The setup of `sample_pair`: a synchronous initiator with two bytes of garbage and two decoys, an
asynchronous responder with neither. -/
def sampleSetup : Setup :=
  ⟨syncApi, asyncApi, [1, 2, 3, 4], leBytes 32 77, leBytes 32 99, some [42, 42], none, some [[1, 2, 3], []], none⟩

/-- Beside C56: the same two parties finish with capacities 82 and 64, and deadlock with 63 and 63 (garbage),
and with 80 and 35 (decoys). -/
example : HonestPair toy .debug sampleSetup.magic sampleSetup.rngI sampleSetup.rngR sampleSetup.gI
      sampleSetup.gR sampleSetup.dI sampleSetup.dR ∧
    allFlights sampleSetup.gI sampleSetup.dI = 145 ∧ allFlights sampleSetup.gR sampleSetup.dR = 100 ∧
    sampleSetup.Fits 82 64 ∧ ¬ sampleSetup.Fits 63 63 ∧ ¬ sampleSetup.Fits 80 35 ∧ sampleSetup.Fits 80 36 := by
  refine ⟨sample_pair, rfl, rfl, ?_⟩
  simp [Setup.Fits, GetsOut, allFlights, firstFlight, sampleSetup]

end Bip324
