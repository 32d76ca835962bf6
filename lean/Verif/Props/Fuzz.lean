import Verif.Model.Fuzz
import Verif.Lemmas.HandshakeAccept

/-!
# The fuzz targets: C65

What the fuzz targets can find.  If the keys of their seeds are usable, no input whatever makes them crash; the target
for `receive_garbage` never asks for more data, so it does not reach that branch.
-/

namespace Bip324

variable {P : Prims} {prof : Profile}

/-! ## Specification -/

/-- The terminator that the responder sends. -/
def fuzzTerminator (P : Prims) (rng rng2 : Bytes) : Bytes :=
  (Spec.directions P FUZZ_MAGIC (P.ellswift rng) (P.ellswift rng2) rng true).2.2.2

/-- The keys of the two seeds are usable, and do not begin with the magic. -/
structure FuzzSeeds (P : Prims) (prof : Profile) (rng rng2 : Bytes) : Prop where
  usable : Spec.UsableKey P prof rng
  usable2 : Spec.UsableKey P prof rng2
  notV1 : (P.ellswift rng).take 4 ≠ FUZZ_MAGIC
  notV1_2 : (P.ellswift rng2).take 4 ≠ FUZZ_MAGIC

/-! ## `receive_key` -/

theorem fuzz_sendKey (hP : Lawful P) (role : Role) (rng : Bytes) :
    HsInitialized.sendKey ⟨FUZZ_MAGIC, role, rng, P.ellswift rng⟩ none (zeros (HsInitialized.sendKeyLen none))
      = (P.ellswift rng, .ok ⟨FUZZ_MAGIC, role, rng, P.ellswift rng, none⟩) := by
  have h := C18_send_key ⟨FUZZ_MAGIC, role, rng, P.ellswift rng⟩ (hP.ellswift_length rng) none
    (zeros (HsInitialized.sendKeyLen none))
  rw [h]
  have hl : (zeros (HsInitialized.sendKeyLen none)).length = 64 := by simp [zeros]; rfl
  simp only [Option.getD_none, List.length_nil, Nat.add_zero, hl]
  rw [if_neg (by omega), if_neg (by omega)]
  have hd : List.drop 64 (zeros (HsInitialized.sendKeyLen none)) = [] := List.drop_of_length_le (by omega)
  rw [hd]
  simp

/-- C65, `receive_key`: no input makes the target crash.  Only inputs of 64 bytes are tried; of these, exactly those that
begin with the magic are refused, as V1, and all others succeed. -/
theorem C65_key (hP : Lawful P) {rng : Bytes} (hk : Spec.UsableKey P prof rng) (data : Bytes) :
    (data.length ≠ 64 → fuzzReceiveKey P prof rng data = .skipped) ∧
    (data.length = 64 → data.take 4 = [0xf9, 0xbe, 0xb4, 0xd9] →
      fuzzReceiveKey P prof rng data = .ran (.err .v1Protocol)) ∧
    (data.length = 64 → data.take 4 ≠ [0xf9, 0xbe, 0xb4, 0xd9] →
      ∃ r, fuzzReceiveKey P prof rng data = .ran (.ok r)) := by
  unfold fuzzReceiveKey
  refine ⟨fun h => if_pos h, fun h hm => ?_, fun h hm => ?_⟩
  all_goals
    rw [if_neg (by omega), newWithRng_ok hk]
    simp only [FuzzRun.unwrap, fuzz_sendKey hP, receiveKey_eq hP]
  · rw [if_pos (show data.take 4 = FUZZ_MAGIC from hm)]; rfl
  · rw [if_neg (show data.take 4 ≠ FUZZ_MAGIC from hm)]; exact ⟨_, rfl⟩

/-- The first occurrence. -/
theorem first_of {t b : Bytes} {n : Nat} (h : Spec.OccursAt t b n) :
    ∃ i ≤ n, Spec.OccursAt t b i ∧ ∀ j < i, ¬ Spec.OccursAt t b j := by
  induction n using Nat.strongRecOn with
  | ind n ih =>
    by_cases hj : ∃ j < n, Spec.OccursAt t b j
    · obtain ⟨j, hlt, ho⟩ := hj
      obtain ⟨i, hi, hr⟩ := ih j hlt ho
      exact ⟨i, by omega, hr⟩
    · exact ⟨n, Nat.le_refl _, h, fun j hlt ho => hj ⟨j, hlt, ho⟩⟩

/-! ## `receive_garbage` -/

theorem fuzz_agree (hP : Lawful P) {rng rng2 : Bytes} (h : Spec.UsableKey P prof rng)
    (h2 : Spec.UsableKey P prof rng2) :
    peerKeys P FUZZ_MAGIC (P.ellswift rng) (P.ellswift rng2) rng .initiator
      = peerKeys P FUZZ_MAGIC (P.ellswift rng2) (P.ellswift rng) rng2 .responder := by
  have := hP.ecdh_agree rng rng2 Spec.ecdhTag h.1 h2.1
  unfold peerKeys Spec.ecdhSecret
  simp only [Role.initiating]
  simp [this]

/-- The target reaches `receive_garbage` with the data followed by the responder's terminator. -/
theorem fuzzReceiveGarbage_eq (hP : Lawful P) {rng rng2 : Bytes} (hs : FuzzSeeds P prof rng rng2) {data : Bytes}
    (hd : data.length ≤ 5000) :
    ∃ h : HsSentVersion, h.remoteTerminator = fuzzTerminator P rng rng2 ∧ h.remoteTerminator.length = 16 ∧
      fuzzReceiveGarbage P prof rng rng2 data
        = FuzzRun.finish (h.receiveGarbage (data ++ fuzzTerminator P rng rng2)) := by
  unfold fuzzReceiveGarbage
  rw [if_neg (by omega), newWithRng_ok hs.usable, newWithRng_ok hs.usable2]
  simp only [FuzzRun.unwrap, fuzz_sendKey hP, receiveKey_eq hP,
    List.take_of_length_le (Nat.le_of_eq (hP.ellswift_length _)), if_neg hs.notV1, if_neg hs.notV1_2]
  have hlen : (zeros (HsReceivedKey.sendVersionLen none)).length = 36 := by simp [zeros]; rfl
  have ht := fun es key sk role => And.intro (peerKeys_terminators hP FUZZ_MAGIC es key sk role .initiator)
    (peerKeys_terminators hP FUZZ_MAGIC es key sk role .responder)
  obtain ⟨b1, s1, e1, -, -, h1⟩ := C17_terminators (prof := prof) hP
    ⟨FUZZ_MAGIC, .responder, peerKeys P FUZZ_MAGIC (P.ellswift rng2) (P.ellswift rng) rng2 .responder, none⟩
    (zeros (HsReceivedKey.sendVersionLen none)) none (ht _ _ _ _) (by simp) (by simp [hlen])
  obtain ⟨b2, s2, e2, -, h2, -⟩ := C17_terminators (prof := prof) hP
    ⟨FUZZ_MAGIC, .initiator, peerKeys P FUZZ_MAGIC (P.ellswift rng) (P.ellswift rng2) rng .initiator, none⟩
    (zeros (HsReceivedKey.sendVersionLen none)) none (ht _ _ _ _) (by simp) (by simp [hlen])
  have h1 := h1 rfl
  have h2 := h2 rfl
  simp only [e1, e2]
  refine ⟨s2, h2.2.1, ?_, ?_⟩
  · rw [h2.2.1]; exact (ht _ _ _ _).2
  · rw [h1.1, ← fuzz_agree hP hs.usable hs.usable2]
    rfl

/-- C65, `receive_garbage`: no input makes the target crash.  Inputs of more than 5000 bytes are not tried; for all others
the garbage that is found is what precedes the first terminator, if that is at most 4095 bytes, and otherwise there is
an error.  The answer that more data is needed is never given. -/
theorem C65_garbage (hP : Lawful P) {rng rng2 : Bytes} (hs : FuzzSeeds P prof rng rng2) (data : Bytes) :
    (5000 < data.length → fuzzReceiveGarbage P prof rng rng2 data = .skipped) ∧
    (data.length ≤ 5000 → ∃ i ≤ data.length,
      Spec.OccursAt (fuzzTerminator P rng rng2) (data ++ fuzzTerminator P rng rng2) i ∧
      (∀ j < i, ¬ Spec.OccursAt (fuzzTerminator P rng rng2) (data ++ fuzzTerminator P rng rng2) j) ∧
      (i ≤ 4095 → ∃ h', fuzzReceiveGarbage P prof rng rng2 data = .ran (.ok (.foundGarbage h' (i + 16))) ∧
        h'.remoteGarbage.getD [] = data.take i) ∧
      (4095 < i → fuzzReceiveGarbage P prof rng rng2 data = .ran (.err .noGarbageTerminator))) := by
  refine ⟨fun h => by unfold fuzzReceiveGarbage; exact if_pos h, fun hd => ?_⟩
  obtain ⟨h, ht, h16, he⟩ := fuzzReceiveGarbage_eq hP hs hd
  rw [← ht] at he ⊢
  have hlast : Spec.OccursAt h.remoteTerminator (data ++ h.remoteTerminator) data.length :=
    ⟨data, [], by simp, rfl⟩
  rw [he]
  cases hr : h.receiveGarbage (data ++ h.remoteTerminator) with
  | panic => exact absurd hr (C21_no_panic h _)
  | err e =>
    obtain ⟨rfl, hl, hno⟩ := (C21_no_terminator h h16 _ e).1 hr
    obtain ⟨i, hi, hf⟩ := first_of hlast
    refine ⟨i, hi, hf.1, hf.2, fun h4 => absurd hf.1 (hno i h4), fun _ => rfl⟩
  | ok g =>
    cases g with
    | needMoreData h' => exact absurd hlast (((C21_need_more h h16 _ h').1 hr).2.2 _)
    | foundGarbage h' n =>
      obtain ⟨i, hi, ho, hf, rfl, hg, -⟩ := (C21_found h h16 _ h' n).1 hr
      have hid : i ≤ data.length := by
        rcases Nat.lt_or_ge data.length i with hlt | hge
        · exact absurd hlast (hf _ hlt)
        · exact hge
      refine ⟨i, hid, ho, hf, fun _ => ⟨h', rfl, ?_⟩, fun h4 => by omega⟩
      rw [hg, List.take_append_of_le_length hid]

/-- C65: what the target for `receive_garbage` cannot see. -/
theorem C65_never_more (hP : Lawful P) {rng rng2 : Bytes} (hs : FuzzSeeds P prof rng rng2) (data : Bytes) :
    fuzzReceiveGarbage P prof rng rng2 data ≠ .crashed ∧
    ∀ h', fuzzReceiveGarbage P prof rng rng2 data ≠ .ran (.ok (.needMoreData h')) := by
  obtain ⟨h1, h2⟩ := C65_garbage hP hs data
  rcases Nat.lt_or_ge 5000 data.length with h | h
  · rw [h1 h]; simp
  · obtain ⟨i, -, -, -, h3, h4⟩ := h2 h
    rcases Nat.lt_or_ge 4095 i with h | h
    · rw [h4 h]; simp
    · obtain ⟨h', he, -⟩ := h3 h
      rw [he]; simp

theorem unwrap_reported {α β : Type} {r : Outcome Error β} {k : β → FuzzRun α} (h : ∀ b, k b ≠ .ran .panic) :
    FuzzRun.unwrap r k ≠ .ran .panic := by
  unfold FuzzRun.unwrap
  split
  · exact h _
  · simp

theorem finish_reported {α : Type} (r : Outcome Error α) : FuzzRun.finish r ≠ .ran .panic := by
  cases r <;> simp [FuzzRun.finish]

/-- C65: whatever the primitives, the seeds and the input, a panic inside the library is a crash of the target and not a result. -/
theorem C65_reported (P : Prims) (prof : Profile) (rng rng2 data : Bytes) :
    fuzzReceiveKey P prof rng data ≠ .ran .panic ∧ fuzzReceiveGarbage P prof rng rng2 data ≠ .ran .panic := by
  unfold fuzzReceiveKey fuzzReceiveGarbage
  constructor <;> split
  · simp
  · exact unwrap_reported fun _ => unwrap_reported fun _ => finish_reported _
  · simp
  · exact unwrap_reported fun _ => unwrap_reported fun _ => unwrap_reported fun _ => unwrap_reported fun _ => unwrap_reported fun _ =>
      unwrap_reported fun _ => unwrap_reported fun _ => unwrap_reported fun _ => finish_reported _

/-- C65: the seeds decide alone whether the target for `receive_garbage` crashes, the input has no influence (as long as
it is tried at all). -/
theorem C65_seeds (hP : Lawful P) {rng rng2 : Bytes} (h : Spec.UsableKey P prof rng)
    (h2 : Spec.UsableKey P prof rng2) {data : Bytes} (hd : data.length ≤ 5000) :
    fuzzReceiveGarbage P prof rng rng2 data = .crashed ↔
      (P.ellswift rng).take 4 = [0xf9, 0xbe, 0xb4, 0xd9] ∨ (P.ellswift rng2).take 4 = [0xf9, 0xbe, 0xb4, 0xd9] := by
  constructor
  · intro hc
    by_cases a : (P.ellswift rng).take 4 = FUZZ_MAGIC
    · exact .inl a
    · by_cases b : (P.ellswift rng2).take 4 = FUZZ_MAGIC
      · exact .inr b
      · exact absurd hc (C65_never_more hP ⟨h, h2, a, b⟩ data).1
  · intro hv
    unfold fuzzReceiveGarbage
    rw [if_neg (by omega), newWithRng_ok h, newWithRng_ok h2]
    simp only [FuzzRun.unwrap, fuzz_sendKey hP, receiveKey_eq hP,
      List.take_of_length_le (Nat.le_of_eq (hP.ellswift_length _))]
    by_cases b : (P.ellswift rng2).take 4 = FUZZ_MAGIC
    · rw [if_pos b]
    · have a : (P.ellswift rng).take 4 = FUZZ_MAGIC := hv.resolve_right b
      rw [if_neg b, if_pos a]

/-! ## Non-vacuity -/

/-- The hypotheses hold for these seeds; data that contains a terminator itself, and data that is too long. -/
example : FuzzSeeds toy .debug (leBytes 32 77) (leBytes 32 99) := by
  refine ⟨?_, ?_, ?_, ?_⟩ <;> decide +kernel

example :
    let t := fuzzTerminator toy (leBytes 32 77) (leBytes 32 99)
    (match fuzzReceiveGarbage toy .debug (leBytes 32 77) (leBytes 32 99) ([1, 2, 3] ++ t ++ [4, 5]) with
      | .ran (.ok (.foundGarbage h n)) => h.remoteGarbage == some [1, 2, 3] && n == 19
      | _ => false) = true := by
  decide +kernel

example :
    (match fuzzReceiveKey toy .debug (leBytes 32 77) (FUZZ_MAGIC ++ zeros 60) with
      | .ran (.err .v1Protocol) => true
      | _ => false) = true ∧
    (match fuzzReceiveKey toy .debug (leBytes 32 77) (zeros 64) with
      | .ran (.ok _) => true
      | _ => false) = true := by
  decide +kernel

end Bip324
