import Verif.Props.Attacker
import Verif.Lemmas.Reference

/-!
# C87: an attacker between the parties during the handshake
-/

namespace Bip324

variable {P : Prims} {prof : Profile}

namespace Spec

/-- The messages of a party with what is authenticated besides: its garbage with the first, nothing with the others. -/
def withAad (garbage : Bytes) : List (UInt8 × Bytes) → List (Bytes × UInt8 × Bytes)
  | [] => []
  | m :: ms => (garbage, m) :: ms.map fun m => ([], m)

/-- The sender has sealed `sent[0]`, `sent[1]`, ... (authenticated data, header, contents) under the packet numbers 0, 1, ...; no part of
`bs` opens to something under one of the first `k` packet numbers, together with nothing or with what stands in front of a terminator, except to what
was sealed under that number. -/
def Untouched (P : Prims) (kP terminator : Bytes) (k : Nat) (sent : List (Bytes × UInt8 × Bytes)) (bs : Bytes) : Prop :=
  ∀ j < k, ∀ before ct tag after aad plain, bs = before ++ ct ++ tag ++ after → tag.length = 16 →
    (aad = [] ∨ ∃ rest, bs = aad ++ terminator ++ rest) →
    P.openC (packetKey P kP (j / interval)) (packetNonce j) aad ct tag = some plain → plain ≠ [] →
    ∃ m, sent[j]? = some m ∧ aad = m.1 ∧ plain = m.2.1 :: m.2.2

end Spec

theorem withAad_getElem (g : Bytes) (ms : List (UInt8 × Bytes)) (i : Nat) :
    (Spec.withAad g ms)[i]? = ms[i]?.map fun m => (if i = 0 then g else [], m) := by
  cases ms with
  | nil => rfl
  | cons m ms =>
    cases i with
    | zero => rfl
    | succ i => simp [Spec.withAad]

/-- The place of a packet in a stream. -/
theorem packetStream_at (kL kP : Bytes) (ms : List (UInt8 × Bytes)) : ∀ (n : Nat) (aad : Bytes) (i : Nat) (m : UInt8 × Bytes),
    ms[i]? = some m → ∃ before after, Spec.packetStream P kL kP n aad ms =
      before ++ Spec.sealedPart P kP (n + i) m.1 (if i = 0 then aad else []) m.2 ++ after := by
  induction ms with
  | nil => intro n aad i m h; simp at h
  | cons m0 ms ih =>
    intro n aad i m h
    cases i with
    | zero =>
      simp only [List.getElem?_cons_zero, Option.some.injEq] at h
      subst h
      refine ⟨Spec.xor (Spec.le 3 m0.2.length) (Spec.lengthMask P kL n), Spec.packetStream P kL kP (n + 1) [] ms, ?_⟩
      rw [packetStream_append, rawPacket_eq]
      simp
    | succ i =>
      rw [List.getElem?_cons_succ] at h
      obtain ⟨before, after, he⟩ := ih (n + 1) [] i m h
      refine ⟨Spec.rawPacket P kL kP n m0.1 aad m0.2 ++ before, after, ?_⟩
      rw [packetStream_append, he, show n + 1 + i = n + (i + 1) by omega]
      simp

/-- Handshakes end with the first message that is not a decoy. -/
theorem handshakeMessages_unique {v v' : UInt8 × Bytes} (hv : v.1 ≠ 0x80) (hv' : v'.1 ≠ 0x80) {later : List (UInt8 × Bytes)} :
    ∀ {d d' : List Bytes}, Spec.handshakeMessages d v <+: Spec.handshakeMessages d' v' ++ later → d = d' ∧ v = v' := by
  intro d
  induction d with
  | nil =>
    intro d' h
    cases d' with
    | nil =>
      simp only [Spec.handshakeMessages, List.map_nil, List.nil_append, List.cons_append, List.cons_prefix_cons] at h
      exact ⟨rfl, h.1⟩
    | cons x d' =>
      simp only [Spec.handshakeMessages, List.map_nil, List.nil_append, List.map_cons, List.cons_append, List.cons_prefix_cons] at h
      rw [h.1] at hv
      exact absurd rfl hv
  | cons y d ih =>
    intro d' h
    cases d' with
    | nil =>
      simp only [Spec.handshakeMessages, List.map_nil, List.nil_append, List.map_cons, List.cons_append, List.cons_prefix_cons] at h
      rw [← h.1] at hv'
      exact absurd rfl hv'
    | cons x d' =>
      simp only [Spec.handshakeMessages, List.map_cons, List.cons_append, List.cons_prefix_cons] at h
      obtain ⟨h1, h2⟩ := h
      obtain ⟨rfl, h3⟩ := ih (d' := d') (by simpa [Spec.handshakeMessages] using h2)
      simp only [Prod.mk.injEq, true_and] at h1
      exact ⟨by rw [h1], h3⟩

/-- What a handshake transcript carries, under the assumption, is what was sent. -/
theorem untouched_transcript (hP : Lawful P) {kL kP term gB : Bytes} {dB : List Bytes} {vB : UInt8 × Bytes} {later : List (UInt8 × Bytes)}
    {k : Nat} {bs : Bytes} (hu : Spec.Untouched P kP term k (Spec.withAad gB (Spec.handshakeMessages dB vB ++ later)) bs)
    {g : Bytes} {d : List Bytes} {v : UInt8 × Bytes} {rest : Bytes} (hv : v.1 ≠ 0x80) (hvB : vB.1 ≠ 0x80)
    (hb : bs = g ++ term ++ Spec.packetStream P kL kP 0 g (Spec.handshakeMessages d v) ++ rest) (hk : bs.length / 20 ≤ k) :
    g = gB ∧ d = dB ∧ v = vB := by
  have hlen : (Spec.handshakeMessages d v).length ≤ k := by
    have h1 := packetStream_length hP kL kP 0 g (Spec.handshakeMessages d v)
    have h2 := congrArg List.length hb
    simp only [List.length_append] at h2
    omega
  have key : ∀ i m, (Spec.handshakeMessages d v)[i]? = some m →
      (Spec.handshakeMessages dB vB ++ later)[i]? = some m ∧ (i = 0 → g = gB) := by
    intro i m hm
    have hi := (List.getElem?_eq_some_iff.1 hm).1
    obtain ⟨before, after, he⟩ := packetStream_at (P := P) kL kP _ 0 g i m hm
    rw [Nat.zero_add] at he
    have hseal : P.openC (Spec.packetKey P kP (i / Spec.interval)) (Spec.packetNonce i) (if i = 0 then g else [])
        (P.sealC (Spec.packetKey P kP (i / Spec.interval)) (Spec.packetNonce i) (if i = 0 then g else []) (m.1 :: m.2)).1
        (P.sealC (Spec.packetKey P kP (i / Spec.interval)) (Spec.packetNonce i) (if i = 0 then g else []) (m.1 :: m.2)).2
        = some (m.1 :: m.2) := (hP.open_iff ..).2 rfl
    obtain ⟨m', h1, h2, h3⟩ := hu i (by omega) (g ++ term ++ before) _ _ (after ++ rest) _ _
      (by rw [hb, he]; unfold Spec.sealedPart; simp only [List.append_assoc]) (hP.tag_length ..) (by
        by_cases h0 : i = 0
        · exact .inr ⟨_, by rw [if_pos h0, hb, List.append_assoc]⟩
        · exact .inl (if_neg h0)) hseal (List.cons_ne_nil _ _)
    rw [withAad_getElem] at h1
    obtain ⟨m2, h4, rfl⟩ := Option.map_eq_some_iff.1 h1
    simp only [List.cons.injEq] at h3
    have : m2 = m := Prod.ext h3.1.symm h3.2.symm
    subst this
    refine ⟨h4, fun h0 => ?_⟩
    simpa [h0] using h2
  have hpre : Spec.handshakeMessages d v <+: Spec.handshakeMessages dB vB ++ later := by
    rw [List.prefix_iff_getElem?]
    intro i hi
    exact (key i _ (List.getElem?_eq_getElem hi)).1
  obtain ⟨h1, h2⟩ := handshakeMessages_unique hv hvB hpre
  refine ⟨?_, h1, h2⟩
  have hne : 0 < (Spec.handshakeMessages d v).length := by simp [Spec.handshakeMessages]
  exact (key 0 _ (List.getElem?_eq_getElem hne)).2 rfl

/-- The same for the session behind it. -/
theorem untouched_later {kP term gB : Bytes} {first later : List (UInt8 × Bytes)} {k n : Nat} {bs front rest : Bytes}
    (hu : Spec.Untouched P kP term k (Spec.withAad gB (first ++ later)) bs) (hf : first.length = n + 1) (hb : bs = front ++ rest) :
    Spec.Unforged P kP (n + 1) (k - (n + 1)) later rest := by
  intro j hj before ct tag after plain hr ht ho hne
  obtain ⟨m, h1, -, h3⟩ := hu (n + 1 + j) (by omega) (front ++ before) ct tag after [] plain
    (by rw [hb, hr]; simp only [List.append_assoc]) ht (.inl rfl) ho hne
  rw [withAad_getElem, List.getElem?_append_right (by omega), hf, Nat.add_sub_cancel_left] at h1
  obtain ⟨m2, h4, rfl⟩ := Option.map_eq_some_iff.1 h1
  exact ⟨m2, h4, h3⟩

/-- What both APIs have in common. -/
theorem middle_common (hP : Lawful P) {magic rng : Bytes} {role : Role} {bs rest : Bytes} {peerKey garbage : Bytes} {decoys : List Bytes}
    {version : UInt8 × Bytes}
    (hadm : Spec.Admissible magic (Spec.directions P magic (P.ellswift rng) peerKey rng role.initiating).2.2.2 peerKey garbage decoys version)
    (hb : bs = Spec.peerTranscript P (Spec.directions P magic (P.ellswift rng) peerKey rng role.initiating).2 peerKey garbage decoys version
      ++ rest) {gB : Bytes} {dB : List Bytes} {later : List (UInt8 × Bytes)} {k : Nat} (hk : (bs.length - 64) / 20 ≤ k)
    (hu : Spec.Untouched P (Spec.directions P magic (P.ellswift rng) (bs.take 64) rng role.initiating).2.2.1
      (Spec.directions P magic (P.ellswift rng) (bs.take 64) rng role.initiating).2.2.2 k
      (Spec.withAad gB (Spec.handshakeMessages dB (0, []) ++ later)) (bs.drop 64)) :
    peerKey = bs.take 64 ∧ garbage = gB ∧ decoys = dB ∧ version = (0, []) ∧
    Spec.Unforged P (Spec.directions P magic (P.ellswift rng) (bs.take 64) rng role.initiating).2.2.1 (dB.length + 1) (k - (dB.length + 1))
      later rest := by
  have hkey : peerKey = bs.take 64 := by
    rw [hb, Spec.peerTranscript, List.append_assoc, List.append_assoc, List.append_assoc, take_append_len _ _ hadm.keyLength.symm]
  have hd : bs.drop 64 = garbage ++ (Spec.directions P magic (P.ellswift rng) peerKey rng role.initiating).2.2.2 ++
      Spec.packetStream P (Spec.directions P magic (P.ellswift rng) peerKey rng role.initiating).2.1
        (Spec.directions P magic (P.ellswift rng) peerKey rng role.initiating).2.2.1 0 garbage
        (Spec.handshakeMessages decoys version) ++ rest := by
    rw [hb, Spec.peerTranscript, List.append_assoc, List.append_assoc, List.append_assoc, drop_append_len _ _ hadm.keyLength.symm]
    simp only [List.append_assoc]
  rw [← hkey] at hu ⊢
  obtain ⟨rfl, rfl, rfl⟩ := untouched_transcript hP hu hadm.versionGenuine (by decide) hd (by rw [List.length_drop]; exact hk)
  exact ⟨rfl, rfl, rfl, rfl, untouched_later hu (by simp [Spec.handshakeMessages]) hd⟩

/-- C87, blocking API.  The bytes that arrive begin with some key; the party that holds it has sent its handshake with the garbage `gB` and
the decoys `dB`, and `later` after it.  If no packet is forged then a handshake that succeeds has taken exactly the bytes that this party sent,
and what is read after it is a front part of what it sent. -/
theorem C87_sync (hP : Lawful P) {magic rng : Bytes} {role : Role} {g : Option Bytes} {d : Option (List Bytes)} {reader : Source}
    {writer : Sink} {p : SyncProtocol} (hd : (d.getD []).length + 1 < 2 ^ 32) (hlen : reader.bytes.length < 2 ^ 36)
    (hr : SyncProtocol.new P prof magic role rng g d reader writer = .ok p) {gB : Bytes} {dB : List Bytes} {later : List (UInt8 × Bytes)}
    {k reads : Nat} (hk : (reader.bytes.length - 64) / 20 + reads ≤ k) (hreads : reads < 2 ^ 29)
    (hu : Spec.Untouched P (Spec.directions P magic (P.ellswift rng) (reader.bytes.take 64) rng role.initiating).2.2.1
      (Spec.directions P magic (P.ellswift rng) (reader.bytes.take 64) rng role.initiating).2.2.2 k
      (Spec.withAad gB (Spec.handshakeMessages dB (0, []) ++ later)) (reader.bytes.drop 64)) :
    reader.bytes = Spec.ownTranscript P (Spec.directions P magic (P.ellswift rng) (reader.bytes.take 64) rng role.initiating).2
      (reader.bytes.take 64) gB dB ++ p.reader.reader.bytes ∧
    ∃ l, l <+: later ∧ payloads (p.reader.readMany P prof reads).2 = l.map delivered := by
  unfold SyncProtocol.new at hr
  rcases hh : handshake syncApi P prof magic role rng g d reader writer with ⟨w', log, ⟨i, o, s⟩ | e | _⟩ <;> simp only [hh] at hr
  case err => simp at hr
  case panic => simp at hr
  simp only [Outcome.ok.injEq] at hr
  subst hr
  obtain ⟨peerKey, garbage, decoys, version, hadm, hb, hi, -, -⟩ := C47_sync_sound hP hd hlen hh
  obtain ⟨hkey, rfl, rfl, rfl, hf⟩ := middle_common hP hadm hb (by omega) hu
  have hn : decoys.length + 1 ≤ (reader.bytes.length - 64) / 20 := by
    have h2 := congrArg List.length hb
    have h1 := packetStream_length hP (Spec.directions P magic (P.ellswift rng) peerKey rng role.initiating).2.1
      (Spec.directions P magic (P.ellswift rng) peerKey rng role.initiating).2.2.1 0 garbage (Spec.handshakeMessages decoys (0, []))
    simp only [Spec.peerTranscript, List.length_append, Spec.handshakeMessages, List.length_map, List.length_cons, List.length_nil] at h1 h2
    have h3 := hadm.keyLength
    rw [Nat.le_div_iff_mul_le (by decide)]
    omega
  rw [← hkey] at hf ⊢
  refine ⟨?_, ?_⟩
  · rw [Spec.ownTranscript, Ref.versionBytes_stream]
    rw [Spec.peerTranscript] at hb
    simp only [List.append_assoc] at hb ⊢
    exact hb
  · cases hm : SyncReader.readMany P prof ⟨i, s⟩ reads with
    | mk r' xs =>
      exact C49_sync hP hi.2 (by omega) (fun j hj => hf j (by omega)) hm

/-- C87, asynchronous API: the same, with reads that are polled and cancelled at any moment. -/
theorem C87_async (hP : Lawful P) {magic rng : Bytes} {role : Role} {g : Option Bytes} {d : Option (List Bytes)} {reader : Source}
    {writer : Sink} {p : AsyncProtocol} (hd : (d.getD []).length + 1 < 2 ^ 32) (hlen : reader.bytes.length < 2 ^ 36)
    (hr : AsyncProtocol.new P prof magic role rng g d reader writer = .ok p) {gB : Bytes} {dB : List Bytes} {later : List (UInt8 × Bytes)}
    {k : Nat} {es : List ReadEvent} (hk : (reader.bytes.length - 64) / 20 + es.length ≤ k) (hreads : es.length < 2 ^ 29)
    (hu : Spec.Untouched P (Spec.directions P magic (P.ellswift rng) (reader.bytes.take 64) rng role.initiating).2.2.1
      (Spec.directions P magic (P.ellswift rng) (reader.bytes.take 64) rng role.initiating).2.2.2 k
      (Spec.withAad gB (Spec.handshakeMessages dB (0, []) ++ later)) (reader.bytes.drop 64)) :
    reader.bytes = Spec.ownTranscript P (Spec.directions P magic (P.ellswift rng) (reader.bytes.take 64) rng role.initiating).2
      (reader.bytes.take 64) gB dB ++ p.reader.reader.remaining ∧
    ∃ l, l <+: later ∧ payloads (p.reader.run P prof es).2 = l.map delivered := by
  unfold AsyncProtocol.new at hr
  rcases hh : handshake asyncApi P prof magic role rng g d reader writer with ⟨w', log, ⟨i, o, s⟩ | e | _⟩ <;> simp only [hh] at hr
  case err => simp at hr
  case panic => simp at hr
  simp only [Outcome.ok.injEq] at hr
  subst hr
  obtain ⟨peerKey, garbage, decoys, version, hadm, hb, hi, -, -⟩ := C47_async_sound hP hd hlen hh
  obtain ⟨hkey, rfl, rfl, rfl, hf⟩ := middle_common hP hadm hb (by omega) hu
  have hn : decoys.length + 1 ≤ (reader.bytes.length - 64) / 20 := by
    have h2 := congrArg List.length hb
    have h1 := packetStream_length hP (Spec.directions P magic (P.ellswift rng) peerKey rng role.initiating).2.1
      (Spec.directions P magic (P.ellswift rng) peerKey rng role.initiating).2.2.1 0 garbage (Spec.handshakeMessages decoys (0, []))
    simp only [Spec.peerTranscript, List.length_append, Spec.handshakeMessages, List.length_map, List.length_cons, List.length_nil] at h1 h2
    have h3 := hadm.keyLength
    rw [Nat.le_div_iff_mul_le (by decide)]
    omega
  rw [← hkey] at hf ⊢
  refine ⟨?_, ?_⟩
  · rw [Spec.ownTranscript, Ref.versionBytes_stream]
    rw [Spec.peerTranscript] at hb
    simp only [List.append_assoc] at hb ⊢
    exact hb
  · cases hm : AsyncReader.run P prof ⟨i, s, .initReadingLength⟩ es with
    | mk r' xs =>
      exact C49_async hP hi rfl (by omega) (fun j hj => hf j (by omega)) hm

/-! ## Non-vacuity -/

/-- The finitely many parts of `bs` to be looked at. -/
def untouchedCheck (P : Prims) (kP terminator : Bytes) (k : Nat) (sent : List (Bytes × UInt8 × Bytes)) (bs : Bytes) : Bool :=
  let aads := [] :: ((List.range (bs.length + 1)).filter fun a => terminator.isPrefixOf (bs.drop a)).map bs.take
  (List.range k).all fun j => (List.range (bs.length + 1)).all fun a => (List.range (bs.length + 1 - a)).all fun b => aads.all fun aad =>
    match P.openC (Spec.packetKey P kP (j / Spec.interval)) (Spec.packetNonce j) aad ((bs.drop a).take b) ((bs.drop (a + b)).take 16) with
    | none => true
    | some plain => ((bs.drop (a + b)).take 16).length != 16 || plain.isEmpty ||
        match sent[j]? with
        | none => false
        | some m => aad == m.1 && plain == m.2.1 :: m.2.2

theorem untouched_of_check {kP terminator : Bytes} {k : Nat} {sent : List (Bytes × UInt8 × Bytes)} {bs : Bytes}
    (h : untouchedCheck P kP terminator k sent bs = true) : Spec.Untouched P kP terminator k sent bs := by
  intro j hj before ct tag after aad plain hb ht ha ho hne
  unfold untouchedCheck at h
  simp only [List.all_eq_true] at h
  have hlen := congrArg List.length hb
  simp only [List.length_append] at hlen
  have h3 := h j (List.mem_range.2 hj) before.length (List.mem_range.2 (by omega)) ct.length (List.mem_range.2 (by omega)) aad (by
    rcases ha with rfl | ⟨rest, hr⟩
    · exact List.mem_cons_self
    · refine List.mem_cons_of_mem _ (List.mem_map.2 ⟨aad.length, List.mem_filter.2 ⟨List.mem_range.2 ?_, ?_⟩, ?_⟩)
      · have := congrArg List.length hr
        simp only [List.length_append] at this
        omega
      · rw [List.isPrefixOf_iff_prefix, hr, List.append_assoc, drop_append_len _ _ rfl]
        exact List.prefix_append ..
      · rw [hr, List.append_assoc, take_append_len _ _ rfl])
  have e1 : (bs.drop before.length).take ct.length = ct := by
    rw [hb, List.append_assoc, List.append_assoc, drop_append_len _ _ rfl, take_append_len _ _ rfl]
  have e2 : (bs.drop (before.length + ct.length)).take 16 = tag := by
    rw [hb, List.append_assoc, ← List.length_append, drop_append_len _ _ rfl, take_append_len _ _ ht.symm]
  rw [e1, e2, ho] at h3
  have hne' : plain.isEmpty = false := by simpa using hne
  simp only [ht, hne', bne_self_eq_false, Bool.false_or] at h3
  cases hs : sent[j]? with
  | none => rw [hs] at h3; simp at h3
  | some m =>
    rw [hs] at h3
    simp only [Bool.and_eq_true, beq_iff_eq] at h3
    exact ⟨m, rfl, h3.1, h3.2⟩

/-- A responder that sends one byte of garbage, no decoys, and a packet after the handshake; the attacker cuts the packet short and
goes on with bytes of its own. -/
def middleBytes : Bytes :=
  Spec.ownTranscript toy sampleDirections.2 (toy.ellswift (leBytes 32 99)) [9] [] ++
    Spec.rawPacket toy sampleDirections.2.1 sampleDirections.2.2.1 1 0 [] [6] ++ [5, 5, 5]

/-- Non-vacuity of C87, both APIs: the handshake completes, nothing is forged, and one packet is delivered. -/
example :
    Spec.Untouched toy sampleDirections.2.2.1 sampleDirections.2.2.2 5
      (Spec.withAad [9] (Spec.handshakeMessages [] (0, []) ++ [(0, [6]), (0, [7])])) (middleBytes.drop 64) ∧
    middleBytes.take 64 = toy.ellswift (leBytes 32 99) ∧ (middleBytes.length - 64) / 20 + 2 ≤ 5 :=
  ⟨untouched_of_check (by decide +kernel), by decide +kernel, by decide +kernel⟩

example :
    ((SyncProtocol.new toy .debug [1, 2, 3, 4] .initiator (leBytes 32 77) none none
      [.data (middleBytes.take 70), .fail .interrupted, .data (middleBytes.drop 70)] ⟨[], [], []⟩) matches .ok _) ∧
    ((AsyncProtocol.new toy .debug [1, 2, 3, 4] .initiator (leBytes 32 77) none none
      [.data (middleBytes.take 70), .pending, .data (middleBytes.drop 70)] ⟨[], [], []⟩) matches .ok _) := by
  decide +kernel

/-- A single bit of the garbage changed: the bytes are still untouched in the sense of the assumption, so C87 says that the handshake
fails; and so it does, at the first packet. -/
example :
    let bs := middleBytes.take 64 ++ 8 :: middleBytes.drop 65
    Spec.Untouched toy sampleDirections.2.2.1 sampleDirections.2.2.2 3
      (Spec.withAad [9] (Spec.handshakeMessages [] (0, []) ++ [(0, [6]), (0, [7])])) (bs.drop 64) ∧
    ((SyncProtocol.new toy .debug [1, 2, 3, 4] .initiator (leBytes 32 77) none none [.data bs] ⟨[], [], []⟩) matches .err _) :=
  ⟨untouched_of_check (by decide +kernel), by decide +kernel⟩

end Bip324
