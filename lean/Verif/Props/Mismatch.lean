import Verif.Props.Differential
import Verif.Props.Separate
import Verif.Props.Stranger
import Verif.Lemmas.Link

/-!
# C91: parties that do not fit: two initiators, two responders, different networks, replayed and reflected bytes
-/

namespace Bip324

open Concrete

variable {P : Prims} {prof : Profile}

/-! ## What they derive -/

theorem directions_in (magic ours theirs sk : Bytes) (initiating : Bool) :
    let secret := Spec.ecdhSecret P (if initiating then ours else theirs) (if initiating then theirs else ours) sk initiating
    (Spec.directions P magic ours theirs sk initiating).2.1 =
        Spec.expand P magic secret (if initiating then Spec.lblResponderL else Spec.lblInitiatorL) ∧
      (Spec.directions P magic ours theirs sk initiating).2.2.1 =
        Spec.expand P magic secret (if initiating then Spec.lblResponderP else Spec.lblInitiatorP) ∧
      (Spec.directions P magic ours theirs sk initiating).1.1 =
        Spec.expand P magic secret (if initiating then Spec.lblInitiatorL else Spec.lblResponderL) ∧
      (Spec.directions P magic ours theirs sk initiating).1.2.1 =
        Spec.expand P magic secret (if initiating then Spec.lblInitiatorP else Spec.lblResponderP) := by
  cases initiating <;> exact ⟨rfl, rfl, rfl, rfl⟩

/-- The messages that a party hashes for the key with this label. -/
def Spec.partyMessages (label magic ours theirs sk : Bytes) (initiating : Bool) : List Bytes :=
  Spec.keyMessages label magic (if initiating then ours else theirs) (if initiating then theirs else ours) (Spec.sharedX sk theirs)

/-- C91: what a party uses for receiving and another for sending - between whatever they take for the keys of each other - are different
length keys and different packet keys, unless they are on one network, in different roles and the second has spoken to the first; or two
messages collide which they have hashed for these keys, at the same step. -/
theorem C91_keys (enc : Bytes → Bytes) {mA mB keyA keyB keyX skA skB : Bytes} {initA initB : Bool} (hmA : mA.length = 4)
    (hmB : mB.length = 4) (hA : keyA.length = 64) (hB : keyB.length = 64) (hX : keyX.length = 64)
    (hfit : ¬ (mA = mB ∧ keyX = keyA ∧ initA ≠ initB)) :
    ((Spec.directions (rfc (secpWith enc)) mA keyA keyB skA initA).2.1 ≠ (Spec.directions (rfc (secpWith enc)) mB keyB keyX skB initB).1.1 ∧
      (Spec.directions (rfc (secpWith enc)) mA keyA keyB skA initA).2.2.1 ≠
        (Spec.directions (rfc (secpWith enc)) mB keyB keyX skB initB).1.2.1) ∨
    ∃ label ∈ [Spec.lblInitiatorL, Spec.lblInitiatorP, Spec.lblResponderL, Spec.lblResponderP],
      ∃ label' ∈ [Spec.lblInitiatorL, Spec.lblInitiatorP, Spec.lblResponderL, Spec.lblResponderP],
        Spec.CollisionAmong (Spec.partyMessages label mA keyA keyB skA initA) (Spec.partyMessages label' mB keyB keyX skB initB) := by
  have key : ∀ label label', (initA = initB → label ≠ label') → Spec.expand (rfc (secpWith enc)) mA (Spec.ecdhSecret (rfc (secpWith enc))
        (if initA then keyA else keyB) (if initA then keyB else keyA) skA initA) label =
      Spec.expand (rfc (secpWith enc)) mB (Spec.ecdhSecret (rfc (secpWith enc))
        (if initB then keyB else keyX) (if initB then keyX else keyB) skB initB) label' →
      Spec.CollisionAmong (Spec.partyMessages label mA keyA keyB skA initA) (Spec.partyMessages label' mB keyB keyX skB initB) := by
    intro label label' hl h
    have h' := congrArg some h
    rw [key_eq, key_eq] at h'
    have ex : ∀ (i : Bool) (a b : Bytes), (if i then (if i then b else a) else (if i then a else b)) = b := by
      intro i a b; cases i <;> rfl
    rw [ex, ex] at h'
    rcases key_binds hmA hmB (by cases initA <;> cases initB <;> simp [hA, hB, hX]) (by cases initA <;> cases initB <;> simp [hA, hB, hX])
      h' with ⟨e0, e1, e2, e3⟩ | hc
    · exfalso
      have hi : initA ≠ initB := fun h => hl h e0
      refine hfit ⟨e1, ?_, hi⟩
      cases initA <;> cases initB
      · exact absurd rfl hi
      · exact e3.symm
      · exact e2.symm
      · exact absurd rfl hi
    · exact hc
  obtain ⟨a1, a2, -, -⟩ := directions_in (P := rfc (secpWith enc)) mA keyA keyB skA initA
  obtain ⟨-, -, b1, b2⟩ := directions_in (P := rfc (secpWith enc)) mB keyB keyX skB initB
  by_cases h1 : (Spec.directions (rfc (secpWith enc)) mA keyA keyB skA initA).2.1 = (Spec.directions (rfc (secpWith enc)) mB keyB keyX skB initB).1.1
  · right
    rw [a1, b1] at h1
    exact ⟨_, by cases initA <;> simp, _, by cases initB <;> simp, key _ _ (by rintro rfl; cases initA <;> decide) h1⟩
  · by_cases h2 : (Spec.directions (rfc (secpWith enc)) mA keyA keyB skA initA).2.2.1 =
        (Spec.directions (rfc (secpWith enc)) mB keyB keyX skB initB).1.2.1
    · right
      rw [a2, b2] at h2
      exact ⟨_, by cases initA <;> simp, _, by cases initB <;> simp, key _ _ (by rintro rfl; cases initA <;> decide) h2⟩
    · exact .inl ⟨h1, h2⟩

/-! ## How it ends -/

/-- How many bytes a party sends. -/
theorem flight_length (hP : Lawful P) (me : Peer) (magic : Bytes) (role : Role) (bs : Bytes) :
    (me.flight P magic role bs).length =
      64 + (me.garbage.getD []).length + 36 + ((me.decoys.getD []).map fun d => d.length + 20).sum := by
  have hp : ∀ (kL kP : Bytes) (ms : List (Bool × Bytes × Bytes)) (n : Nat),
      ((ms.mapIdx fun i m => Spec.packet P kL kP (n + i) m.1 m.2.2 m.2.1).flatten).length = (ms.map fun m => m.2.1.length + 20).sum := by
    intro kL kP ms
    induction ms with
    | nil => intro n; rfl
    | cons m ms ih =>
      intro n
      rw [List.mapIdx_cons, List.flatten_cons, List.length_append, spec_packet_length hP, List.map_cons, List.sum_cons]
      have := ih (n + 1)
      simp only [Nat.add_assoc, Nat.add_comm 1] at this ⊢
      rw [this]
  have hd : (me.directions P magic role bs).1.2.2.length = 16 := (Ref.directions_terminators hP _ _ _ _ _).1
  have h0 := hp (me.directions P magic role bs).1.1 (me.directions P magic role bs).1.2.1
    (Spec.handshakePackets (me.garbage.getD []) (me.decoys.getD [])) 0
  simp only [Nat.zero_add] at h0
  unfold Peer.flight Spec.ownTranscript Spec.versionBytes
  rw [List.length_append, List.length_append, List.length_append, hP.ellswift_length, hd, h0]
  cases me.decoys.getD [] with
  | nil => simp [Spec.handshakePackets]
  | cons d ds =>
    simp only [Spec.handshakePackets, List.map_cons, List.map_append, List.map_map, List.map_nil, List.length_nil,
      List.cons_append, List.sum_cons, List.sum_append, List.sum_nil, Function.comp_def]
    omega

theorem flight_take (hP : Lawful P) (me : Peer) (magic : Bytes) (role : Role) (bs : Bytes) :
    (me.flight P magic role bs).take 64 = P.ellswift me.rng := by
  unfold Peer.flight Spec.ownTranscript
  rw [List.append_assoc, take_append_len _ _ (hP.ellswift_length _).symm]

theorem directions_flight (hP : Lawful P) (me peer : Peer) (mA mB : Bytes) (rA rB : Role) (bs : Bytes) :
    me.directions P mA rA (peer.flight P mB rB bs) = me.directions P mA rA (P.ellswift peer.rng) := by
  unfold Peer.directions
  rw [flight_take hP, List.take_of_length_le (Nat.le_of_eq (hP.ellswift_length _))]

theorem flight_flight (hP : Lawful P) (me peer : Peer) (mA mB : Bytes) (rA rB : Role) (bs : Bytes) :
    me.flight P mA rA (peer.flight P mB rB bs) = me.flight P mA rA (P.ellswift peer.rng) := by
  rw [Peer.flight, directions_flight hP, ← Peer.flight]

/-- The end of a handshake without terminator, after this many bytes have come. -/
def Spec.withoutTerminator (received : Nat) (k : ErrorKind) : ProtocolError :=
  if received < 64 + 4111 then .fromIo k else .internal .noGarbageTerminator

/-- C91: a party waits for a terminator that does not come: `other` is the key to which the peer has spoken, which
is this party's, that of an earlier session whose bytes are replayed, or any other.  Its handshake has no result before the
transport fails or is closed, and then has the error of the transport; only if the peer sends 4111 bytes or more besides its key, there
is the error about the terminator. -/
theorem C91_one_side {A : Api} (hA : A = syncApi ∨ A = asyncApi) (hP : Lawful P) {me peer : Peer} (hme : Ready P prof me)
    {mA mB other : Bytes} {rA rB : Role} {reader tail : Source} {k : ErrorKind} {writer : Sink} (hw : writer.Reliable A.retry)
    (hend : EndsWith A.retry tail k) (hn : (peer.flight P mB rB (other)).length < 2 ^ 36)
    (hs : Streams false reader (peer.flight P mB rB (other)) tail) (hv1 : (P.ellswift peer.rng).take 4 ≠ mA)
    (hno : ∀ j ≤ 4095, ¬ Spec.OccursAt (me.directions P mA rA (P.ellswift peer.rng)).2.2.2
      ((peer.flight P mB rB (other)).drop 64) j) :
    ∃ w' log, handshake A P prof mA rA me.rng me.garbage me.decoys reader writer =
        (w', log, .err (Spec.withoutTerminator (64 + (peer.garbage.getD []).length + 36 +
          ((peer.decoys.getD []).map fun d => d.length + 20).sum) k)) ∧
      w'.out = writer.out ++ me.flight P mA rA (P.ellswift peer.rng) := by
  have hl := flight_length hP peer mB rB (other)
  have ht := flight_take hP peer mB rB (other)
  obtain ⟨B, w', log, r, h1, -, -, h2⟩ := C62_library (me := me) (magic := mA) (role := rA) hA hP hme hw hend hn hs
  have hv : (peer.flight P mB rB (other)).take 4 ≠ mA := by
    have : (peer.flight P mB rB (other)).take 4 = (P.ellswift peer.rng).take 4 := by
      rw [← ht, List.take_take]; rfl
    rw [this]; exact hv1
  obtain ⟨h3, v, h4, h5⟩ := h2 (by omega) hv
  rw [flight_flight hP] at h3
  rw [directions_flight hP] at h4 h5
  rw [← hl]
  generalize hR : (peer.flight P mB rB (other)).drop 64 = R at h4 hno
  have hR' : R.length = (peer.flight P mB rB (other)).length - 64 := by rw [← hR, List.length_drop]
  cases h4 with
  | waits a b =>
    obtain ⟨e, h6, rfl⟩ := h5
    have hb : (peer.flight P mB rB (other)).length < 64 + 4111 := by
      have : libRules.patience = 4111 := rfl
      omega
    simp only [Spec.Verdict.error, Option.some.injEq] at h6
    subst h6
    exact ⟨w', log, by rw [h1, Spec.withoutTerminator, if_pos hb], h3⟩
  | noTerminator a b =>
    obtain ⟨e, h6, rfl⟩ := h5
    have hb : ¬ (peer.flight P mB rB (other)).length < 64 + 4111 := by
      have : libRules.patience = 4111 := rfl
      omega
    simp only [Spec.Verdict.error, Option.some.injEq] at h6
    subst h6
    exact ⟨w', log, by rw [h1, Spec.withoutTerminator, if_neg hb], h3⟩
  | @garbage g rest v hg =>
    exact (hno g.length hg (occurs_garbage _ g rest)).elim

/-- C91: a party that is sent its own bytes.  It derives keys with itself as peer, and does not take its own terminator for that of the
other role. -/
theorem C91_reflected {A : Api} (hA : A = syncApi ∨ A = asyncApi) (hP : Lawful P) {me : Peer} (hme : Ready P prof me) {m : Bytes} {r : Role}
    {reader tail : Source} {k : ErrorKind} {writer : Sink} (hw : writer.Reliable A.retry) (hend : EndsWith A.retry tail k)
    (hn : (me.flight P m r (P.ellswift me.rng)).length < 2 ^ 36) (hs : Streams false reader (me.flight P m r (P.ellswift me.rng)) tail)
    (hv1 : (P.ellswift me.rng).take 4 ≠ m)
    (hno : ∀ j ≤ 4095, ¬ Spec.OccursAt (me.directions P m r (P.ellswift me.rng)).2.2.2
      ((me.flight P m r (P.ellswift me.rng)).drop 64) j) :
    ∃ w' log e, handshake A P prof m r me.rng me.garbage me.decoys reader writer = (w', log, .err e) ∧
      w'.out = writer.out ++ me.flight P m r (P.ellswift me.rng) := by
  obtain ⟨w', log, h1, h2⟩ := C91_one_side hA hP hme hw hend hn hs hv1 hno
  exact ⟨w', log, _, h1, h2⟩

/-- C91: both parties, with either API each.  What each of them reads is what the other sends, and neither has a session. -/
theorem C91_both {A B : Api} (hA : A = syncApi ∨ A = asyncApi) (hB : B = syncApi ∨ B = asyncApi) (hP : Lawful P) {a b : Peer}
    (ha : Ready P prof a) (hb : Ready P prof b) {mA mB : Bytes} {rA rB : Role} {readerA tailA readerB tailB : Source} {kA kB : ErrorKind}
    {writerA writerB : Sink} (hwA : writerA.Reliable A.retry) (hwB : writerB.Reliable B.retry) (heA : EndsWith A.retry tailA kA)
    (heB : EndsWith B.retry tailB kB) (hnA : (a.flight P mA rA (P.ellswift b.rng)).length < 2 ^ 36)
    (hnB : (b.flight P mB rB (P.ellswift a.rng)).length < 2 ^ 36)
    (hsA : Streams false readerA (b.flight P mB rB (P.ellswift a.rng)) tailA)
    (hsB : Streams false readerB (a.flight P mA rA (P.ellswift b.rng)) tailB)
    (hvA : (P.ellswift b.rng).take 4 ≠ mA) (hvB : (P.ellswift a.rng).take 4 ≠ mB)
    (hnoA : ∀ j ≤ 4095, ¬ Spec.OccursAt (a.directions P mA rA (P.ellswift b.rng)).2.2.2
      ((b.flight P mB rB (P.ellswift a.rng)).drop 64) j)
    (hnoB : ∀ j ≤ 4095, ¬ Spec.OccursAt (b.directions P mB rB (P.ellswift a.rng)).2.2.2
      ((a.flight P mA rA (P.ellswift b.rng)).drop 64) j) :
    ∃ wA wB logA logB eA eB,
      handshake A P prof mA rA a.rng a.garbage a.decoys readerA writerA = (wA, logA, .err eA) ∧
      handshake B P prof mB rB b.rng b.garbage b.decoys readerB writerB = (wB, logB, .err eB) ∧
      wA.out = writerA.out ++ a.flight P mA rA (P.ellswift b.rng) ∧ wB.out = writerB.out ++ b.flight P mB rB (P.ellswift a.rng) ∧
      eA = Spec.withoutTerminator (64 + (b.garbage.getD []).length + 36 + ((b.decoys.getD []).map fun d => d.length + 20).sum) kA ∧
      eB = Spec.withoutTerminator (64 + (a.garbage.getD []).length + 36 + ((a.decoys.getD []).map fun d => d.length + 20).sum) kB := by
  obtain ⟨wA, logA, h1, h2⟩ := C91_one_side hA hP ha hwA heA hnB hsA hvA hnoA
  obtain ⟨wB, logB, h3, h4⟩ := C91_one_side hB hP hb hwB heB hnA hsB hvB hnoB
  exact ⟨wA, wB, logA, logB, _, _, h1, h3, h2, h4, rfl, rfl⟩

/-- C91: whatever the peer sends, at most 4096 of the 2^128 values that the terminator may have occur where it is looked for. -/
theorem C91_chance (peer : Peer) (mB : Bytes) (rB : Role) (key : Bytes) (S : Finset (Fin (2 ^ 128)))
    (hS : ∀ t ∈ S, ∃ j ≤ 4095, Spec.OccursAt (leBytes 16 t.val) ((peer.flight P mB rB key).drop 64) j) : S.card ≤ 4096 :=
  windows_count _ S fun t ht => by
    obtain ⟨j, h1, h2⟩ := hS t ht
    exact ⟨j, h1, h2⟩

/-! ## Cases -/

private def partyA : Peer := ⟨leBytes 32 0x1122334455, some [7, 7, 7], some [[1, 2]]⟩
private def partyB : Peer := ⟨leBytes 32 0x99887766554433, none, none⟩

theorem occursAt_window {t bs : Bytes} (h : ∀ j < bs.length + 1, (bs.drop j).take t.length ≠ t) (j : Nat) : ¬ Spec.OccursAt t bs j := by
  rintro ⟨pre, post, rfl, rfl⟩
  refine h pre.length (by simp only [List.length_append]; omega) ?_
  rw [List.append_assoc, List.drop_left, List.take_left]

/-- The hypotheses of `C91_both` are met by two initiators of one network. -/
example : Ready toy .debug partyA ∧ Ready toy .debug partyB ∧
    (toy.ellswift partyB.rng).take 4 ≠ [1, 2, 3, 4] ∧ (toy.ellswift partyA.rng).take 4 ≠ [1, 2, 3, 4] ∧
    (∀ j ≤ 4095, ¬ Spec.OccursAt (partyA.directions toy [1, 2, 3, 4] .initiator (toy.ellswift partyB.rng)).2.2.2
      ((partyB.flight toy [1, 2, 3, 4] .initiator (toy.ellswift partyA.rng)).drop 64) j) ∧
    (∀ j ≤ 4095, ¬ Spec.OccursAt (partyB.directions toy [1, 2, 3, 4] .initiator (toy.ellswift partyA.rng)).2.2.2
      ((partyA.flight toy [1, 2, 3, 4] .initiator (toy.ellswift partyB.rng)).drop 64) j) := by
  refine ⟨⟨by decide +kernel, by decide, by decide⟩, ⟨by decide +kernel, by decide, by decide⟩, by decide +kernel, by decide +kernel, ?_, ?_⟩
  · exact fun j _ => occursAt_window (by decide +kernel) j
  · exact fun j _ => occursAt_window (by decide +kernel) j

/-- Two initiators, or two responders: each side waits until the transport ends, and is told to try V1; an
initiator and a responder of one network have a session. -/
private def pairUp (mA mB : Bytes) (rA rB : Role) : Option (Option ProtocolError) × Option (Option ProtocolError) :=
  let run (m : Bytes) (r : Role) (me : Peer) (bs : Bytes) : Option (Option ProtocolError) :=
    match (handshake syncApi toy .debug m r me.rng me.garbage me.decoys [.data bs] ⟨[], [], []⟩).2.2 with
    | .ok _ => some none
    | .err e => some (some e)
    | _ => none
  (run mA rA partyA (partyB.flight toy mB rB (toy.ellswift partyA.rng)),
    run mB rB partyB (partyA.flight toy mA rA (toy.ellswift partyB.rng)))

example :
    pairUp [1, 2, 3, 4] [1, 2, 3, 4] .initiator .initiator =
      (some (some (.io .unexpectedEof .retryV1)), some (some (.io .unexpectedEof .retryV1))) ∧
    pairUp [1, 2, 3, 4] [1, 2, 3, 4] .responder .responder =
      (some (some (.io .unexpectedEof .retryV1)), some (some (.io .unexpectedEof .retryV1))) ∧
    pairUp [1, 2, 3, 4] [1, 2, 3, 4] .initiator .responder = (some none, some none) := by
  decide +kernel

/-- A replay: the flight of a responder for another initiator; a reflection: the own flight; and the flight meant for this initiator. -/
example :
    let run bs := match (handshake syncApi toy .debug [1, 2, 3, 4] .initiator partyA.rng partyA.garbage partyA.decoys
        [.data bs] ⟨[], [], []⟩).2.2 with
      | .ok _ => some none
      | .err e => some (some e)
      | _ => none
    run (partyB.flight toy [1, 2, 3, 4] .responder (toy.ellswift (leBytes 32 5))) = some (some (.io .unexpectedEof .retryV1)) ∧
    run (partyA.flight toy [1, 2, 3, 4] .initiator (toy.ellswift partyA.rng)) = some (some (.io .unexpectedEof .retryV1)) ∧
    run (partyB.flight toy [1, 2, 3, 4] .responder (toy.ellswift partyA.rng)) = some none := by
  decide +kernel

end Bip324
