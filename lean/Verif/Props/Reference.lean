import Verif.Props.Interop
import Verif.Lemmas.Reference

/-!
# Every API talks to the reference implementation of BIP-324: C61

The other end is no longer this library: it is the Python program in the text of BIP-324, in Lean in
`Verif/Spec/Reference.lean`.
-/

namespace Bip324

open Concrete

variable {P : Prims} {prof : Profile}

/-! ## Specification -/

/-- The party, when it runs the reference implementation. -/
def Peer.reference (p : Peer) (role : Role) : Ref.Peer :=
  ⟨p.rng, p.garbage.getD [], p.decoys.getD [], role.initiating⟩

/-- The contents of the messages that are not decoys. -/
def genuines (ms : List Payload) : List Bytes :=
  ms.filterMap fun m => match m.view with
    | some (.genuine, c) => some c
    | _ => none

/-- A message of the reference implementation: whether it is a decoy, and the contents. -/
def asPayload (m : Bool × Bytes) : Payload := if m.1 then .decoy m.2 else .genuine m.2

/-- The reference implementation, when these bytes have arrived since the beginning of the connection, has
finished its handshake, and has received exactly these contents, without a reason to disconnect. -/
def Understands (P : Prims) (magic : Bytes) (p : Ref.Peer) (all : Bytes) (contents : List Bytes) : Prop :=
  ∃ t rest, (Ref.run P magic p all).2 = .ready t rest ∧ Ref.receiveAll P rest.length t rest = (contents, false)

/-- The key of the party in `role`. -/
def Role.key (P : Prims) (I R : Peer) (role : Role) : Bytes := P.ellswift (role.of I R).rng

/-- What the party in `role` derives. -/
def Role.dirs (P : Prims) (magic : Bytes) (I R : Peer) (role : Role) :
    (Bytes × Bytes × Bytes) × (Bytes × Bytes × Bytes) :=
  Spec.directions P magic (role.key P I R) (role.peer.key P I R) (role.of I R).rng role.initiating

/-! ## The two parties derive the same -/

section Pair

variable {magic : Bytes} {I R : Peer}

theorem dirs_peer (hP : Lawful P) (H : Honest P prof magic I R) (role : Role) :
    (role.peer.dirs P magic I R).1 = (role.dirs P magic I R).2 := by
  have he : Spec.ecdhSecret P (P.ellswift I.rng) (P.ellswift R.rng) I.rng true
      = Spec.ecdhSecret P (P.ellswift I.rng) (P.ellswift R.rng) R.rng false :=
    hP.ecdh_agree _ _ _ H.newI.1 H.newR.1
  cases role
  · show Spec.responderKeys P magic (Spec.ecdhSecret P (P.ellswift I.rng) (P.ellswift R.rng) R.rng false)
      = Spec.responderKeys P magic (Spec.ecdhSecret P (P.ellswift I.rng) (P.ellswift R.rng) I.rng true)
    rw [he]
  · show Spec.initiatorKeys P magic (Spec.ecdhSecret P (P.ellswift I.rng) (P.ellswift R.rng) I.rng true)
      = Spec.initiatorKeys P magic (Spec.ecdhSecret P (P.ellswift I.rng) (P.ellswift R.rng) R.rng false)
    rw [he]

theorem flight_own (hP : Lawful P) (H : Honest P prof magic I R) (role : Role) :
    flight P magic I R role = Spec.ownTranscript P (role.dirs P magic I R).1 (role.key P I R)
      ((role.of I R).garbage.getD []) ((role.of I R).decoys.getD []) := by
  have he : Spec.ecdhSecret P (P.ellswift I.rng) (P.ellswift R.rng) I.rng true
      = Spec.ecdhSecret P (P.ellswift I.rng) (P.ellswift R.rng) R.rng false :=
    hP.ecdh_agree _ _ _ H.newI.1 H.newR.1
  cases role
  · rfl
  · show wireR P magic I.rng R.rng R.garbage R.decoys = _
    unfold wireR
    rw [he]
    rfl

theorem flight_transcript (hP : Lawful P) (H : Honest P prof magic I R) (role : Role) :
    flight P magic I R role = Spec.peerTranscript P (role.peer.dirs P magic I R).2 (role.key P I R)
      ((role.of I R).garbage.getD []) ((role.of I R).decoys.getD []) (0, []) := by
  have h := dirs_peer hP H role.peer
  have hr : role.peer.peer = role := by cases role <;> rfl
  rw [hr] at h
  rw [flight_own hP H, h, Spec.ownTranscript, Ref.versionBytes_stream, Spec.peerTranscript]
  simp only [List.append_assoc]

theorem honest_garbage (H : Honest P prof magic I R) (role : Role) :
    ((role.of I R).garbage.getD []).length ≤ 4095 := by
  cases role
  · exact H.garbageI
  · exact H.garbageR

theorem honest_key (H : Honest P prof magic I R) (role : Role) : Spec.UsableKey P prof (role.of I R).rng := by
  cases role
  · exact H.newI
  · exact H.newR

theorem honest_count (H : Honest P prof magic I R) (role : Role) :
    ((role.of I R).decoys.getD []).length + 1 < 2 ^ 32 := by
  cases role
  · exact H.countI
  · exact H.countR

theorem honest_decoys (H : Honest P prof magic I R) (role : Role) :
    ∀ d ∈ (role.of I R).decoys.getD [], d.length ≤ 3999997 := by
  cases role
  · exact H.decoysI
  · exact H.decoysR

theorem honest_magic (H : Honest P prof magic I R) (role : Role) : (role.key P I R).take 4 ≠ magic := by
  cases role
  · exact H.magicI
  · exact H.magicR

theorem honest_early (hP : Lawful P) (H : Honest P prof magic I R) (role : Role) :
    ∀ j < ((role.of I R).garbage.getD []).length,
      ¬ Spec.OccursAt (role.dirs P magic I R).1.2.2
        ((role.of I R).garbage.getD [] ++ (role.dirs P magic I R).1.2.2) j := by
  have he : Spec.ecdhSecret P (P.ellswift I.rng) (P.ellswift R.rng) I.rng true
      = Spec.ecdhSecret P (P.ellswift I.rng) (P.ellswift R.rng) R.rng false :=
    hP.ecdh_agree _ _ _ H.newI.1 H.newR.1
  cases role
  · exact H.earlyI
  · have h := H.earlyR
    rw [he] at h
    exact h

/-- What an honest party sends is admissible for the library. -/
theorem honest_admissible (hP : Lawful P) (H : Honest P prof magic I R) (role : Role) :
    Spec.Admissible magic (role.peer.dirs P magic I R).2.2.2 (role.key P I R)
      ((role.of I R).garbage.getD []) ((role.of I R).decoys.getD []) (0, []) := by
  have h := dirs_peer hP H role.peer
  have hr : role.peer.peer = role := by cases role <;> rfl
  rw [hr] at h
  exact ⟨hP.ellswift_length _, honest_magic H role, honest_garbage H role, h ▸ honest_early hP H role,
    honest_decoys H role, by simp, by decide⟩

/-- The keys of the sending side of an honest party, in its session. -/
theorem sessions_at (hP : Lawful P) (H : Honest P prof magic I R) {i : Role → InboundCipher}
    {o : Role → OutboundCipher} (f : Sessions P prof magic I R i o) (role : Role) :
    OutboundCipher.At P (role.dirs P magic I R).1.1 (role.dirs P magic I R).1.2.1
      (((role.of I R).decoys.getD []).length + 1) (o role) := by
  have hstream : ∀ bs : Bytes, bs ≠ [] → Streams false [.data bs] bs [] := by
    intro bs hb
    refine ⟨[.data bs], ?_, rfl, by simp [Source.bytes]⟩
    intro e he
    rw [List.mem_singleton] at he
    cases bs with
    | nil => exact absurd rfl hb
    | cons b l => exact .inr (.inl ⟨b, l, he⟩)
  have hne : flight P magic I R role.peer ++ [] ≠ [] := by
    intro e
    have hl := congrArg List.length e
    rw [flight_own hP H, Spec.ownTranscript] at hl
    simp only [List.length_append, Role.key, hP.ellswift_length] at hl
    simp at hl
  have hw : Sink.Reliable true ⟨[], [], []⟩ := ⟨by simp, by simp⟩
  have heof : EndsWith true [] .unexpectedEof := .inl ⟨rfl, rfl⟩
  have hs := hstream _ hne
  generalize [REv.data (flight P magic I R role.peer ++ [])] = src at hs
  obtain ⟨w', log, s, h1, -⟩ := f role syncApi syncAbs ⟨[], [], []⟩ src [] .unexpectedEof [] hw heof hs
  have hr : role.peer.peer = role := by cases role <;> rfl
  have hadm := honest_admissible hP H role.peer
  have hft := flight_transcript hP H role.peer
  rw [hr] at hadm hft
  rw [hft] at hs
  obtain ⟨w2, log2, i2, o2, s2, h2, -, -, h3, -⟩ := handshake_complete (prof := prof) syncAbs hP
    (g := (role.of I R).garbage) (d := (role.of I R).decoys)
    (honest_key H role) (honest_garbage H role) (honest_count H role) hw heof (honest_count H role.peer)
    (rest := []) hadm hs
  rw [h1] at h2
  simp only [Prod.mk.injEq, Outcome.ok.injEq] at h2
  rw [h2.2.2.2.1]
  exact h3

/-! ## Packets of the library and packets of BIP-324 -/

/-- Header and contents of a message. -/
def headed (m : Payload) : UInt8 × Bytes :=
  match m.view with
  | some (t, c) => (if t == .decoy then 0x80 else 0, c)
  | none => (0, [])

theorem headed_of_view {m : Payload} {t : PacketType} {c : Bytes} (h : m.view = some (t, c)) :
    headed m = (if t == .decoy then 0x80 else 0, c) := by
  unfold headed
  rw [h]

/-- The packets that the library has sent are those of BIP-324. -/
theorem sent_stream (hP : Lawful P) {kL kP : Bytes} {o o' : OutboundCipher} {ms : List Payload} {sent : Bytes}
    (h : Sent P prof o ms o' sent) : ∀ {n : Nat}, OutboundCipher.At P kL kP n o → n + ms.length < 2 ^ 32 →
    sent = Spec.packetStream P kL kP n [] (ms.map headed) ∧ ∀ m ∈ ms, ∃ v, m.view = some v := by
  induction h with
  | nil o => intro n _ _; exact ⟨rfl, by simp⟩
  | @cons o o1 o2 p t c pkt ps sent hv he _ ih =>
    intro n hat hn
    simp only [List.length_cons] at hn
    obtain ⟨o', hat', he'⟩ := hat.encryptToVec (prof := prof) hP (by omega) c t none
    rw [he] at he'
    simp only [Prod.mk.injEq, Outcome.ok.injEq] at he'
    obtain ⟨rfl, rfl⟩ := he'
    obtain ⟨i1, i2⟩ := ih hat' (by omega)
    refine ⟨?_, ?_⟩
    · rw [List.map_cons, Spec.packetStream, ← i1, headed_of_view hv, Spec.packet_raw]
      rfl
    · intro m hm
      rcases List.mem_cons.mp hm with rfl | hm
      · exact ⟨_, hv⟩
      · exact i2 m hm

/-- And every stream of packets of BIP-324 with the two headers is one that the library could have sent. -/
theorem stream_sent (hP : Lawful P) {kL kP : Bytes} (ms : List (Bool × Bytes)) : ∀ {n : Nat} {o : OutboundCipher},
    OutboundCipher.At P kL kP n o → n + ms.length < 2 ^ 32 →
    ∃ o', Sent P prof o (ms.map asPayload) o'
      (Spec.packetStream P kL kP n [] (ms.map fun m => (if m.1 then 0x80 else 0, m.2))) := by
  induction ms with
  | nil => intro n o _ _; exact ⟨o, .nil o⟩
  | cons m ms ih =>
    intro n o hat hn
    simp only [List.length_cons] at hn
    obtain ⟨o1, hat1, he⟩ := hat.encryptToVec (prof := prof) hP (by omega) m.2
      (if m.1 then .decoy else .genuine) none
    obtain ⟨o', hs⟩ := ih hat1 (by omega)
    refine ⟨o', ?_⟩
    rw [List.map_cons, List.map_cons, Spec.packetStream]
    refine .cons (t := if m.1 then .decoy else .genuine) (c := m.2) ?_ ?_ hs
    · unfold asPayload
      cases m.1 <;> rfl
    · rw [he, Spec.packet_raw]
      cases m.1 <;> rfl

theorem stream_append (kL kP : Bytes) (a b : List (UInt8 × Bytes)) : ∀ (n : Nat) (aad : Bytes),
    Spec.packetStream P kL kP n aad (a ++ b) = Spec.packetStream P kL kP n aad a ++
      Spec.packetStream P kL kP (n + a.length) (if a = [] then aad else []) b := by
  induction a with
  | nil => intro n aad; simp [Spec.packetStream]
  | cons m a ih =>
    intro n aad
    rw [List.cons_append, Spec.packetStream, ih, ite_self, Spec.packetStream, List.append_assoc,
      if_neg (List.cons_ne_nil _ _), List.length_cons, Nat.add_assoc, Nat.add_comm 1]

namespace Ref

/-- What the reference implementation receives from a stream of packets. -/
theorem receiveAll_stream (hP : Lawful P) {kL kP : Bytes} : ∀ (fuel : Nat) (ms : List (UInt8 × Bytes)) {n : Nat}
    {t : Transport} (rest : Bytes), t.RecvAt P kL kP n → ms.length < fuel →
    (∀ m ∈ ms, m.2.length < 2 ^ 24) →
    (Spec.Short P kL (n + ms.length) rest →
      receiveAll P fuel t (Spec.packetStream P kL kP n [] ms ++ rest)
        = ((ms.filter fun m => m.1 &&& 0x80 = 0).map (·.2), false)) ∧
    (Spec.Forged P kL kP (n + ms.length) [] rest →
      receiveAll P fuel t (Spec.packetStream P kL kP n [] ms ++ rest)
        = ((ms.filter fun m => m.1 &&& 0x80 = 0).map (·.2), true)) := by
  intro fuel
  induction fuel with
  | zero => intro ms n t rest _ h; omega
  | succ fuel ih =>
    intro ms n t rest hat hl hsz
    -- the decoys at the beginning
    obtain ⟨ds, tl, rfl, hds, htl⟩ : ∃ ds tl, ms = ds ++ tl ∧ (∀ d ∈ ds, d.1 &&& 0x80 ≠ 0) ∧
        (tl = [] ∨ ∃ m l, tl = m :: l ∧ m.1 &&& 0x80 = 0) := by
      clear hl hsz ih
      induction ms with
      | nil => exact ⟨[], [], rfl, by simp, .inl rfl⟩
      | cons m ms ih =>
        by_cases hm : m.1 &&& 0x80 = 0
        · exact ⟨[], m :: ms, rfl, by simp, .inr ⟨m, ms, rfl, hm⟩⟩
        · obtain ⟨ds, tl, e, h1, h2⟩ := ih
          refine ⟨m :: ds, tl, by rw [e]; rfl, ?_, h2⟩
          intro d hd
          rcases List.mem_cons.mp hd with rfl | hd
          · exact hm
          · exact h1 d hd
    have hfilter : ds.filter (fun m => m.1 &&& 0x80 = 0) = [] := by
      rw [List.filter_eq_nil_iff]
      intro d hd
      simpa using hds d hd
    have hds' : ∀ d ∈ ds, d.1 &&& 0x80 ≠ 0 ∧ d.2.length < 2 ^ 24 := fun d hd =>
      ⟨hds d hd, hsz d (List.mem_append_left _ hd)⟩
    rcases htl with rfl | ⟨m, l, rfl, hm⟩
    · simp only [List.append_nil, hfilter, List.map_nil]
      constructor
      · intro hs
        have e := receivePacket_short hP (ds := ds) [] rest hat hds' hs (Nat.le_refl _)
        simp only [receiveAll, e]
      · intro hf
        have e := receivePacket_forged hP (ds := ds) [] rest hat hds' (by simpa using hf) (Nat.le_refl _)
        simp only [receiveAll, e]
    · have hsplit : Spec.packetStream P kL kP n [] (ds ++ m :: l) ++ rest
          = Spec.packetStream P kL kP n [] (ds ++ [m]) ++
            (Spec.packetStream P kL kP (n + ds.length + 1) [] l ++ rest) := by
        rw [show ds ++ m :: l = (ds ++ [m]) ++ l by simp, stream_append, List.length_append, List.length_singleton,
          ite_self, Nat.add_assoc, List.append_assoc]
      obtain ⟨t', e, hat', -⟩ := receivePacket_ok hP (ds := ds) (m := m) [] 
        (Spec.packetStream P kL kP (n + ds.length + 1) [] l ++ rest) hat hds' hm
        (hsz m (by simp)) (Nat.le_refl _)
      rw [List.length_append, List.length_cons] at hl
      obtain ⟨i1, i2⟩ := ih l rest hat' (by omega) (fun x hx => hsz x (by simp [hx]))
      have hidx : n + (ds ++ m :: l).length = n + ds.length + 1 + l.length := by
        simp only [List.length_append, List.length_cons]; omega
      have hres : ((ds ++ m :: l).filter fun m => m.1 &&& 0x80 = 0).map (·.2)
          = m.2 :: (l.filter fun m => m.1 &&& 0x80 = 0).map (·.2) := by
        rw [List.filter_append, hfilter, List.nil_append, List.filter_cons_of_pos (by simpa using hm), List.map_cons]
      rw [hidx, hsplit, hres]
      constructor
      · intro hs
        simp only [receiveAll, e, i1 hs]
      · intro hf
        simp only [receiveAll, e, i2 hf]

theorem notV1_iff (ps : Bytes) : ∀ bs : Bytes,
    (notV1 ps bs = some false ↔ ps <+: bs) ∧ (notV1 ps bs = none ↔ bs <+: ps ∧ bs.length < ps.length) := by
  induction ps with
  | nil => intro bs; simp [notV1]
  | cons p ps ih =>
    intro bs
    cases bs with
    | nil => simp [notV1]
    | cons b bs =>
      obtain ⟨i1, i2⟩ := ih bs
      by_cases hb : b = p
      · subst hb
        simp only [notV1, if_pos]
        refine ⟨by rw [i1, List.cons_prefix_cons]; simp, by rw [i2, List.cons_prefix_cons]; simp⟩
      · simp only [notV1, if_neg hb]
        refine ⟨?_, ?_⟩
        · simp only [List.cons_prefix_cons]
          constructor
          · intro h; cases h
          · rintro ⟨h, -⟩; exact absurd h.symm hb
        · simp only [List.cons_prefix_cons]
          constructor
          · intro h; cases h
          · rintro ⟨⟨h, -⟩, -⟩; exact absurd h hb

theorem v1Prefix_length {magic : Bytes} (hm : magic.length = 4) : (v1Prefix magic).length = 16 := by
  simp [v1Prefix, hm]

/-- A key that does not look like the rest of a V1 version message is one of a V2 peer. -/
theorem run_key {magic : Bytes} (hm : magic.length = 4) (p : Peer) {theirs : Bytes} (h64 : theirs.length = 64)
    (hv : p.initiating = false → (theirs.drop 4).take 12 ≠ versionWord) (bs : Bytes) :
    run P magic p (theirs ++ bs) = (P.ellswift p.sk ++ p.garbage ++ (completeHandshake P magic p (theirs ++ bs)).1,
      (completeHandshake P magic p (theirs ++ bs)).2) := by
  unfold run
  cases hi : p.initiating with
  | true => simp
  | false =>
    simp only [Bool.false_eq_true, if_false]
    have h : notV1 (v1Prefix magic) (theirs ++ bs) = some true := by
      have hx := notV1_iff (v1Prefix magic) (theirs ++ bs)
      cases hn : notV1 (v1Prefix magic) (theirs ++ bs) with
      | none =>
        have := (hx.2.mp hn).2
        rw [v1Prefix_length hm, List.length_append] at this
        omega
      | some b =>
        cases b with
        | true => rfl
        | false =>
          exfalso
          obtain ⟨l, hl⟩ := hx.1.mp hn
          refine hv hi ?_
          have h4 : (theirs.drop 4).take 12 = ((theirs ++ bs).drop 4).take 12 := by
            rw [List.drop_append_of_le_length (by omega),
              List.take_append_of_le_length (by rw [List.length_drop]; omega)]
          rw [h4, ← hl, v1Prefix, List.append_assoc, drop_append_len _ _ hm.symm]
          exact take_append_len _ _ rfl
    rw [h]

end Ref

/-! ## The handshake of the reference implementation with an honest party -/

/-- The condition on the keys that the reference implementation has: the key of an initiator does not look like
the rest of a V1 version message. -/
def NotV1Key (P : Prims) (I : Peer) : Prop := ((P.ellswift I.rng).drop 4).take 12 ≠ Ref.versionWord

theorem reference_handshake (hP : Lawful P) (hm : magic.length = 4) (H : Honest P prof magic I R) (role : Role)
    (hv : role = .responder → NotV1Key P I) (more : Bytes) :
    ∃ t, Ref.run P magic ((role.of I R).reference role) (flight P magic I R role.peer ++ more)
        = (flight P magic I R role, .ready t more) ∧
      t.SendAt P (role.dirs P magic I R).1.1 (role.dirs P magic I R).1.2.1
        (((role.of I R).decoys.getD []).length + 1) ∧
      t.RecvAt P (role.dirs P magic I R).2.1 (role.dirs P magic I R).2.2.1
        (((role.peer.of I R).decoys.getD []).length + 1) := by
  have hr : role.peer.peer = role := by cases role <;> rfl
  have hadm := honest_admissible hP H role.peer
  have hft := flight_transcript hP H role.peer
  rw [hr] at hadm hft
  have hv' : ((role.of I R).reference role).initiating = false →
      ((role.peer.key P I R).drop 4).take 12 ≠ Ref.versionWord := by
    intro h
    cases role
    · cases h
    · exact hv rfl
  have hmsg : Spec.handshakeMessages ((role.peer.of I R).decoys.getD []) (0, [])
      = ((role.peer.of I R).decoys.getD []).map (fun d => ((0x80 : UInt8), d)) ++ [(0, [])] := rfl
  obtain ⟨t, h1, h2, h3⟩ := Ref.complete_ok hP hm ((role.of I R).reference role) (theirs := role.peer.key P I R)
    (g := (role.peer.of I R).garbage.getD [])
    (ds := ((role.peer.of I R).decoys.getD []).map fun d => ((0x80 : UInt8), d)) (version := (0, [])) more
    ⟨hadm.keyLength, hv', hadm.garbageLength, hadm.firstTerminator, by
      intro d hd
      obtain ⟨x, -, rfl⟩ := List.mem_map.mp hd
      show (0x80 : UInt8) &&& 0x80 ≠ 0
      decide, by
      intro d hd
      obtain ⟨x, hx, rfl⟩ := List.mem_map.mp hd
      have := hadm.decoyLength x hx
      show x.length < _
      omega, by decide, by decide⟩
  have hin : flight P magic I R role.peer = Ref.transcript P (role.dirs P magic I R).2 (role.peer.key P I R)
      ((role.peer.of I R).garbage.getD [])
      (((role.peer.of I R).decoys.getD []).map (fun d => ((0x80 : UInt8), d)) ++ [(0, [])]) := by
    rw [hft]
    rfl
  refine ⟨t, ?_, h2, by rw [List.length_map] at h3; exact h3⟩
  rw [hin]
  have hk : Ref.transcript P (role.dirs P magic I R).2 (role.peer.key P I R)
      ((role.peer.of I R).garbage.getD [])
      (((role.peer.of I R).decoys.getD []).map (fun d => ((0x80 : UInt8), d)) ++ [(0, [])]) ++ more
      = role.peer.key P I R ++ (((role.peer.of I R).garbage.getD []) ++ (role.dirs P magic I R).2.2.2 ++
        Spec.packetStream P (role.dirs P magic I R).2.1 (role.dirs P magic I R).2.2.1 0
          ((role.peer.of I R).garbage.getD [])
          (((role.peer.of I R).decoys.getD []).map (fun d => ((0x80 : UInt8), d)) ++ [(0, [])]) ++ more) := by
    simp only [Ref.transcript, List.append_assoc]
  rw [hk, Ref.run_key hm _ hadm.keyLength hv', ← hk]
  have h1' : Ref.completeHandshake P magic ((role.of I R).reference role)
      (Ref.transcript P (role.dirs P magic I R).2 (role.peer.key P I R)
      ((role.peer.of I R).garbage.getD [])
      (((role.peer.of I R).decoys.getD []).map (fun d => ((0x80 : UInt8), d)) ++ [(0, [])]) ++ more) = _ := h1
  rw [h1', flight_own hP H]
  rfl

/-- The genuine ones among headed messages. -/
theorem headed_genuines (ms : List Payload) (h : ∀ m ∈ ms, ∃ v, m.view = some v) :
    ((ms.map headed).filter fun m => m.1 &&& 0x80 = 0).map (·.2) = genuines ms := by
  induction ms with
  | nil => rfl
  | cons m ms ih =>
    have ih := ih fun x hx => h x (List.mem_cons_of_mem _ hx)
    obtain ⟨⟨t, c⟩, hv⟩ := h m (by simp)
    unfold genuines at ih ⊢
    rw [List.map_cons, headed_of_view hv]
    cases t with
    | genuine =>
      rw [List.filter_cons_of_pos (by show decide ((0 : UInt8) &&& 0x80 = 0) = true; decide), List.map_cons, ih,
        List.filterMap_cons_some (b := c) (by rw [hv])]
    | decoy =>
      rw [List.filter_cons_of_neg (by show ¬ decide ((0x80 : UInt8) &&& 0x80 = 0) = true; decide), ih,
        List.filterMap_cons_none (by rw [hv])]

/-! ## The theorems -/

/-- C61: whatever any kind of end sends, the reference implementation at the other side, in either role,
completes its handshake and receives exactly the contents of the genuine messages, in order. -/
theorem C61_reference_receives (hP : Lawful P) (hm : magic.length = 4) (H : Honest P prof magic I R)
    (hv : NotV1Key P I) :
    AllSenders P prof magic I R fun role all ms =>
      ((role.of I R).decoys.getD []).length + ms.length + 1 < 2 ^ 32 →
      Understands P magic ((role.peer.of I R).reference role.peer) all (genuines ms) := by
  obtain ⟨i, o, f, hat, -⟩ := honest_ofSent hP H
  refine all_senders hP f hat ?_
  intro role ms o' sent hS hz hn
  have hr : role.peer.peer = role := by cases role <;> rfl
  obtain ⟨t, h1, -, h3⟩ := reference_handshake hP hm H role.peer (fun _ => hv) sent
  rw [hr] at h1 h3
  have hd := dirs_peer hP H role.peer
  rw [hr] at hd
  obtain ⟨hs, hviews⟩ := sent_stream hP hS (sessions_at hP H f role) (by omega)
  refine ⟨t, sent, by rw [h1], ?_⟩
  rw [hd] at hs
  have hlen : ms.length ≤ sent.length := by
    rw [hs]
    have := packetStream_length hP (role.peer.dirs P magic I R).2.1 (role.peer.dirs P magic I R).2.2.1
      (((role.of I R).decoys.getD []).length + 1) [] (ms.map headed)
    rw [List.length_map] at this
    omega
  rw [← headed_genuines ms hviews]
  cases ms with
  | nil =>
    rw [hs]
    rfl
  | cons m ms =>
    have hlt : (m :: ms).length < sent.length := by
      rw [hs]
      have := packetStream_length hP (role.peer.dirs P magic I R).2.1 (role.peer.dirs P magic I R).2.2.1
        (((role.of I R).decoys.getD []).length + 1) [] ((m :: ms).map headed)
      rw [List.length_map] at this
      simp only [List.length_cons] at this ⊢
      omega
    have h := (Ref.receiveAll_stream hP sent.length ((m :: ms).map headed) [] h3
      (by rw [List.length_map]; exact hlt) (by
        intro x hx
        obtain ⟨y, hy, rfl⟩ := List.mem_map.mp hx
        obtain ⟨⟨t, c⟩, hvw⟩ := hviews y hy
        rw [headed_of_view hvw]
        have := hz y hy c (Payload.view_some.mp hvw).2
        show c.length < _
        omega)).1 (.inl (by simp))
    rw [List.append_nil, ← hs] at h
    exact h

/-- C61: what the reference implementation sends, in either role, every kind of end understands. -/
theorem C61_reference_sends (hP : Lawful P) (hm : magic.length = 4) (H : Honest P prof magic I R) (role : Role)
    (hv : role = .responder → NotV1Key P I) (more : Bytes) :
    ∃ t, Ref.run P magic ((role.of I R).reference role) (flight P magic I R role.peer ++ more)
        = (flight P magic I R role, .ready t more) ∧
      ∀ ms : List (Bool × Bytes), (∀ m ∈ ms, m.2.length ≤ 4000013) →
        ((role.of I R).decoys.getD []).length + ms.length + 1 < 2 ^ 32 →
        Conveys P prof magic role.peer (role.peer.of I R)
          (flight P magic I R role ++ (Ref.sendAll P t ms).1) (ms.map asPayload) := by
  obtain ⟨i, o, f, hat, hQ⟩ := honest_ofSent hP H
  obtain ⟨t, h1, h2, -⟩ := reference_handshake hP hm H role hv more
  refine ⟨t, h1, ?_⟩
  intro ms hz hn
  obtain ⟨t', h4, -⟩ := Ref.sendAll_at hP ms h2
  obtain ⟨o', hS⟩ := stream_sent (prof := prof) hP ms (sessions_at hP H f role) (by omega)
  rw [h4]
  refine hQ role _ _ _ hS ?_
  intro p hp c hc
  obtain ⟨m, hm, rfl⟩ := List.mem_map.mp hp
  have : c = m.2 := by
    unfold asPayload at hc
    cases h : m.1 <;> rw [h] at hc <;> exact (Option.some.inj hc).symm
  rw [this]
  exact hz m hm

/-- C61: nobody waits for the other for ever: when the reference implementation has the key of its peer, it has
sent everything it sends in the handshake, whatever else has arrived; as initiator it sends its key and garbage
at once. -/
theorem C61_progress (hP : Lawful P) (hm : magic.length = 4) (H : Honest P prof magic I R) (role : Role)
    (hv : role = .responder → NotV1Key P I) (more : Bytes) :
    (Ref.run P magic ((role.of I R).reference role) (role.peer.key P I R ++ more)).1 = flight P magic I R role ∧
    (role = .initiator → (Ref.run P magic ((role.of I R).reference role) []).1
      = role.key P I R ++ (role.of I R).garbage.getD []) := by
  have hr : role.peer.peer = role := by cases role <;> rfl
  have h64 : (role.peer.key P I R).length = 64 := hP.ellswift_length _
  have hv' : ((role.of I R).reference role).initiating = false →
      ((role.peer.key P I R).drop 4).take 12 ≠ Ref.versionWord := by
    intro h
    cases role
    · cases h
    · exact hv rfl
  constructor
  · rw [Ref.run_key hm _ h64 hv']
    have := (Ref.complete_at hP hm ((role.of I R).reference role) h64 hv' more).1
    simp only [this]
    rw [flight_own hP H]
    rfl
  · rintro rfl
    simp [Ref.run, Peer.reference, Role.initiating, Ref.completeHandshake, Ref.receive, Role.key]

end Pair

/-- C61 with the cryptography of the RFCs, BIP-324 and secp256k1, where nothing about it is assumed. -/
theorem C61_real (enc : Bytes → Bytes) (henc : ∀ sk, (enc sk).length = 64) {magic : Bytes} (hm : magic.length = 4)
    {I R : Peer} (H : Honest (rfc (secpWith enc)) prof magic I R) (hv : NotV1Key (rfc (secpWith enc)) I) :
    (AllSenders (rfc (secpWith enc)) prof magic I R fun role all ms =>
      ((role.of I R).decoys.getD []).length + ms.length + 1 < 2 ^ 32 →
      Understands (rfc (secpWith enc)) magic ((role.peer.of I R).reference role.peer) all (genuines ms)) ∧
    ∀ (role : Role) (more : Bytes), ∃ t, Ref.run (rfc (secpWith enc)) magic ((role.of I R).reference role)
        (flight (rfc (secpWith enc)) magic I R role.peer ++ more)
          = (flight (rfc (secpWith enc)) magic I R role, .ready t more) ∧
      ∀ ms : List (Bool × Bytes), (∀ m ∈ ms, m.2.length ≤ 4000013) →
        ((role.of I R).decoys.getD []).length + ms.length + 1 < 2 ^ 32 →
        Conveys (rfc (secpWith enc)) prof magic role.peer (role.peer.of I R)
          (flight (rfc (secpWith enc)) magic I R role ++ (Ref.sendAll (rfc (secpWith enc)) t ms).1)
          (ms.map asPayload) :=
  ⟨C61_reference_receives (C53_real_lawful enc henc) hm H hv,
    fun role more => C61_reference_sends (C53_real_lawful enc henc) hm H role (fun _ => hv) more⟩

/-! ## A case -/

/-- The hypotheses are met, with real keys, on the Bitcoin network. -/
example : NotV1Key (rfc (secpWith ellswiftOf)) ⟨beBytes 32 12345, some [42, 42], some [[7, 7, 7]]⟩ := by
  unfold NotV1Key
  decide +kernel

example (role : Role) (more : Bytes) := (C61_real (prof := .release) ellswiftOf (fun _ => ellswiftEncode_length _)
  (magic := [0xF9, 0xBE, 0xB4, 0xD9]) rfl real_pair (by unfold NotV1Key; decide +kernel)).2 role more

/-- Both ends from the first byte to the last: the reference implementation initiates, a blocking end responds,
and each understands what the other sends. -/
example :
    let I : Peer := ⟨leBytes 32 77, some [42, 42], some [[7, 7, 7]]⟩
    let R : Peer := ⟨leBytes 32 99, none, none⟩
    let f := flight toy [1, 2, 3, 4] I R
    (match Ref.run toy [1, 2, 3, 4] (I.reference .initiator) (f .responder) with
      | (sent, .ready t []) =>
        let said := (Ref.sendAll toy t [(true, [9]), (false, [1, 2])]).1
        match SyncProtocol.new toy .debug [1, 2, 3, 4] .responder R.rng R.garbage R.decoys [.data (sent ++ said)]
            ⟨[], [], []⟩ with
        | .ok p =>
          let w := (p.writer.writeMany .sync toy .debug [.genuine [5], .decoy [], .genuine []]).1
          (p.reader.readMany toy .debug 2).2.map seen
              == [some (PacketType.decoy, [9]), some (PacketType.genuine, [1, 2])] &&
            (match (Ref.run toy [1, 2, 3, 4] (I.reference .initiator) w.writer.out).2 with
              | .ready t rest => Ref.receiveAll toy rest.length t rest == ([[5], []], false)
              | _ => false)
        | _ => false
      | _ => false) = true := by decide +kernel

end Bip324
