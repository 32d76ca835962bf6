import Verif.Props.Quick

/-!
# C98: the bytes on the wire determine what was said
-/

namespace Bip324

open Concrete

variable {P : Prims} {prof prof' : Profile}

/-- A stream of packets that begins like another has the same messages at its beginning. -/
theorem packetStream_prefix (hP : Lawful P) {kL kP : Bytes} {ms ms' : List (UInt8 × Bytes)} (hz : ∀ m ∈ ms, m.2.length < 2 ^ 24)
    (hz' : ∀ m ∈ ms', m.2.length < 2 ^ 24) {n : Nat} {aad : Bytes}
    (h : Spec.packetStream P kL kP n aad ms <+: Spec.packetStream P kL kP n aad ms') : ms <+: ms' := by
  induction ms generalizing ms' n aad with
  | nil => exact List.nil_prefix
  | cons m ms ih =>
    cases ms' with
    | nil =>
      have := h.length_le
      simp only [Spec.packetStream, List.length_append, rawPacket_length hP, List.length_nil] at this
      omega
    | cons m' ms' =>
      simp only [Spec.packetStream] at h
      obtain ⟨rest, h⟩ := h
      have hl : ∀ x : Nat, (Spec.xor (Spec.le 3 x) (Spec.lengthMask P kL n)).length = 3 := by
        intro x; rw [spec_xor, xorBytes_length, lengthMask_length, spec_le, leBytes_length]; rfl
      have h0 := h
      rw [rawPacket_eq, rawPacket_eq] at h0
      simp only [List.append_assoc] at h0
      obtain ⟨e1, e2⟩ := List.append_inj h0 (by rw [hl, hl])
      have hlen := lengthBytes_inj (hz m (by simp)) (hz' m' (by simp)) e1
      obtain ⟨e3, e4⟩ := List.append_inj e2 (by rw [sealedPart_length hP, sealedPart_length hP, hlen])
      obtain ⟨e5, e6⟩ := sealedPart_inj hP e3
      have : m = m' := Prod.ext e5 e6
      subst this
      exact (List.cons_prefix_cons).2 ⟨rfl, ih (fun x hx => hz x (by simp [hx])) (fun x hx => hz' x (by simp [hx])) ⟨rest, e4⟩⟩

/-- Garbage in which the terminator does not occur early is determined by what follows the public key. -/
theorem garbage_determined {t g g' x x' : Bytes} (hg : ∀ j < g.length, ¬ Spec.OccursAt t (g ++ t) j)
    (hg' : ∀ j < g'.length, ¬ Spec.OccursAt t (g' ++ t) j) (h : g ++ (t ++ x) = g' ++ (t ++ x')) : g = g' := by
  have key : ∀ {g g' x x' : Bytes}, (∀ j < g'.length, ¬ Spec.OccursAt t (g' ++ t) j) → g ++ (t ++ x) = g' ++ (t ++ x') →
      ¬ g.length < g'.length := by
    intro g g' x x' hg' h hlt
    refine hg' g.length hlt ?_
    have h1 : g ++ t <+: g' ++ t ++ x' := ⟨x, by rw [List.append_assoc, h, List.append_assoc]⟩
    obtain ⟨post, hp⟩ := List.prefix_of_prefix_length_le h1 (List.prefix_append _ _) (by simp only [List.length_append]; omega)
    exact ⟨g, post, hp.symm, rfl⟩
  have := key hg' h
  have := key hg h.symm
  exact (List.append_inj h (by omega)).1

/-- What the peer of a party reads off a header: a decoy or not. -/
def unheaded (m : UInt8 × Bytes) : Option (PacketType × Bytes) := some (if m.1 = 0x80 then .decoy else .genuine, m.2)

theorem view_headed {m : Payload} {v : PacketType × Bytes} (h : m.view = some v) : m.view = unheaded (headed m) := by
  obtain ⟨t, c⟩ := v
  rw [headed_of_view h, h]
  cases t <;> rfl

theorem views_headed {ms : List Payload} (h : ∀ m ∈ ms, ∃ v, m.view = some v) : ms.map Payload.view = (ms.map headed).map unheaded := by
  rw [List.map_map]
  refine List.map_congr_left fun m hm => ?_
  obtain ⟨v, hv⟩ := h m hm
  exact view_headed hv

theorem headed_views (ms : List Payload) :
    ms.map headed = (ms.map Payload.view).map fun v => match v with
      | some (t, c) => (if t == .decoy then 0x80 else 0, c)
      | none => (0, []) := by
  rw [List.map_map]
  rfl

/-- The messages of the handshake, up to the first that is no decoy, are determined by the messages. -/
theorem handshake_prefix {ds ds' : List Bytes} {ms ms' : List (UInt8 × Bytes)}
    (h : ds.map (fun d => ((0x80 : UInt8), d)) ++ (0, []) :: ms <+: ds'.map (fun d => ((0x80 : UInt8), d)) ++ (0, []) :: ms') :
    ds = ds' ∧ ms <+: ms' := by
  induction ds generalizing ds' with
  | nil =>
    cases ds' with
    | nil => exact ⟨rfl, (List.cons_prefix_cons.1 h).2⟩
    | cons d ds' => exact absurd (List.cons_prefix_cons.1 h).1 (by simp)
  | cons e ds ih =>
    cases ds' with
    | nil => exact absurd (List.cons_prefix_cons.1 h).1 (by simp)
    | cons d ds' =>
      obtain ⟨h1, h2⟩ := List.cons_prefix_cons.1 h
      obtain ⟨h3, h4⟩ := ih h2
      rw [Prod.mk.injEq] at h1
      exact ⟨by rw [h1.2, h3], h4⟩

theorem packetStream_snoc (P : Prims) (kL kP : Bytes) (a : List (UInt8 × Bytes)) (m : UInt8 × Bytes) (b : List (UInt8 × Bytes)) :
    ∀ n aad, Spec.packetStream P kL kP n aad (a ++ m :: b) =
      Spec.packetStream P kL kP n aad (a ++ [m]) ++ Spec.packetStream P kL kP (n + a.length + 1) [] b := by
  induction a with
  | nil => intro n aad; simp [Spec.packetStream]
  | cons x a ih =>
    intro n aad
    simp only [List.cons_append, Spec.packetStream, ih, List.append_assoc, List.length_cons]
    rw [show n + 1 + a.length + 1 = n + (a.length + 1) + 1 by omega]

theorem packetStream_more (P : Prims) (kL kP : Bytes) (a b : List (UInt8 × Bytes)) :
    ∀ n aad, Spec.packetStream P kL kP n aad a <+: Spec.packetStream P kL kP n aad (a ++ b) := by
  induction a with
  | nil => intro n aad; exact List.nil_prefix
  | cons x a ih =>
    intro n aad
    simp only [List.cons_append, Spec.packetStream]
    exact (List.prefix_append_right_inj _).2 (ih _ _)

/-- The bytes of a party as one stream of packets. -/
theorem madeUp_stream (P : Prims) (magic sk : Bytes) (b : Bool) (key garbage : Bytes) (decoys : List Bytes)
    (ms : List (UInt8 × Bytes)) : Spec.madeUp P magic sk b key garbage decoys ms =
      key ++ (garbage ++ ((Spec.directions P magic (P.ellswift sk) key sk b).2.2.2 ++
        Spec.packetStream P (Spec.directions P magic (P.ellswift sk) key sk b).2.1
          (Spec.directions P magic (P.ellswift sk) key sk b).2.2.1 0 garbage
          (decoys.map (fun d => (0x80, d)) ++ (0, []) :: ms))) := by
  rw [packetStream_snoc]
  unfold Spec.madeUp Spec.peerTranscript Spec.handshakeMessages
  simp only [List.append_assoc, List.length_map, Nat.zero_add]

/-- What a party has sent begins with what it sends with other garbage, decoys and messages, exactly if these are the same garbage
and decoys, and the messages begin with the others. -/
theorem madeUp_prefix (hP : Lawful P) {magic sk key : Bytes} {b : Bool} {g g' : Bytes} {ds ds' : List Bytes}
    {ms ms' : List (UInt8 × Bytes)}
    (ha : Spec.Admissible magic (Spec.directions P magic (P.ellswift sk) key sk b).2.2.2 key g ds (0, []))
    (ha' : Spec.Admissible magic (Spec.directions P magic (P.ellswift sk) key sk b).2.2.2 key g' ds' (0, []))
    (hz : ∀ m ∈ ms, m.2.length ≤ 4000013) (hz' : ∀ m ∈ ms', m.2.length ≤ 4000013) :
    Spec.madeUp P magic sk b key g ds ms <+: Spec.madeUp P magic sk b key g' ds' ms' ↔ g = g' ∧ ds = ds' ∧ ms <+: ms' := by
  have small : ∀ {g : Bytes} {ds : List Bytes} {ms : List (UInt8 × Bytes)},
      Spec.Admissible magic (Spec.directions P magic (P.ellswift sk) key sk b).2.2.2 key g ds (0, []) →
      (∀ m ∈ ms, m.2.length ≤ 4000013) → ∀ m ∈ ds.map (fun d => ((0x80 : UInt8), d)) ++ (0, []) :: ms, m.2.length < 2 ^ 24 := by
    intro g ds ms ha hz m hm
    rcases List.mem_append.1 hm with hm | hm
    · obtain ⟨d, hd, rfl⟩ := List.mem_map.1 hm
      exact Nat.lt_of_le_of_lt (ha.decoyLength d hd) (by decide)
    · rcases List.mem_cons.1 hm with rfl | hm
      · show (0 : Nat) < 2 ^ 24; decide
      · exact Nat.lt_of_le_of_lt (hz m hm) (by decide)
  constructor
  · intro h
    rw [madeUp_stream, madeUp_stream] at h
    have h := (List.prefix_append_right_inj _).1 h
    obtain ⟨rest, h0⟩ := h
    simp only [List.append_assoc] at h0
    have hg := garbage_determined ha.firstTerminator ha'.firstTerminator h0
    subst hg
    obtain ⟨h1, h2⟩ := handshake_prefix (packetStream_prefix hP (small ha hz) (small ha' hz')
      ⟨rest, List.append_cancel_left (List.append_cancel_left h0)⟩)
    exact ⟨rfl, h1, h2⟩
  · rintro ⟨rfl, rfl, more, rfl⟩
    unfold Spec.madeUp
    exact (List.prefix_append_right_inj _).2 (packetStream_more ..)

/-- What a party has sent, and that its messages have a type and contents. -/
theorem sent_madeUp (hP : Lawful P) {magic : Bytes} {I R : Peer} (H : Honest P prof magic I R) {i : Role → InboundCipher}
    {o : Role → OutboundCipher} (f : Sessions P prof magic I R i o) {role : Role} {ms : List Payload} {o' : OutboundCipher} {sent : Bytes}
    (hS : Sent P prof (o role) ms o' sent) (hn : ((role.of I R).decoys.getD []).length + ms.length + 1 < 2 ^ 32) :
    flight P magic I R role ++ sent = Spec.madeUp P magic (role.peer.of I R).rng role.peer.initiating (P.ellswift (role.of I R).rng)
      ((role.of I R).garbage.getD []) ((role.of I R).decoys.getD []) (ms.map headed) ∧ ∀ m ∈ ms, ∃ v, m.view = some v := by
  have hr : role.peer.peer = role := by cases role <;> rfl
  have hd := dirs_peer hP H role.peer
  rw [hr] at hd
  obtain ⟨hs, hv⟩ := sent_stream hP hS (sessions_at hP H f role) (by omega)
  refine ⟨?_, hv⟩
  rw [hs, flight_transcript hP H role, hd]
  unfold Spec.madeUp Role.dirs Role.key
  rw [hr]

/-- Two conversations with the same keys: which bytes begin with which. -/
theorem sent_determined (hP : Lawful P) {magic : Bytes} {I R I' R' : Peer} (H : Honest P prof magic I R)
    (H' : Honest P prof' magic I' R') (hI : I'.rng = I.rng) (hR : R'.rng = R.rng) {i i' : Role → InboundCipher}
    {o o' : Role → OutboundCipher} (f : Sessions P prof magic I R i o) (f' : Sessions P prof' magic I' R' i' o') {role : Role}
    {ms ms' : List Payload} {o1 o1' : OutboundCipher} {sent sent' : Bytes} (hS : Sent P prof (o role) ms o1 sent)
    (hS' : Sent P prof' (o' role) ms' o1' sent') (hz : ∀ p ∈ ms, ∀ c, p.contents = some c → c.length ≤ 4000013)
    (hz' : ∀ p ∈ ms', ∀ c, p.contents = some c → c.length ≤ 4000013)
    (hn : ((role.of I R).decoys.getD []).length + ms.length + 1 < 2 ^ 32)
    (hn' : ((role.of I' R').decoys.getD []).length + ms'.length + 1 < 2 ^ 32) :
    flight P magic I R role ++ sent <+: flight P magic I' R' role ++ sent' ↔
      (role.of I R).garbage.getD [] = (role.of I' R').garbage.getD [] ∧
        (role.of I R).decoys.getD [] = (role.of I' R').decoys.getD [] ∧ ms.map Payload.view <+: ms'.map Payload.view := by
  obtain ⟨e1, v1⟩ := sent_madeUp hP H f hS hn
  obtain ⟨e2, v2⟩ := sent_madeUp hP H' f' hS' hn'
  have r1 : (role.of I' R').rng = (role.of I R).rng := by cases role <;> assumption
  have r2 : (role.peer.of I' R').rng = (role.peer.of I R).rng := by cases role <;> assumption
  obtain ⟨a1, -⟩ := honest_madeUp hP H role
  obtain ⟨a2, -⟩ := honest_madeUp hP H' role
  rw [r1, r2] at a2 e2
  rw [e1, e2, madeUp_prefix hP a1 a2 (headed_length hz) (headed_length hz')]
  refine and_congr_right fun _ => and_congr_right fun _ => ⟨fun h => ?_, fun h => ?_⟩
  · rw [views_headed v1, views_headed v2]
    exact h.map _
  · rw [headed_views ms, headed_views ms']
    exact h.map _

/-- C98: what one party sends in a conversation begins what it sends in another one with the same keys - whatever kinds of senders,
generators and schedules - exactly if garbage and decoys of the handshake are the same, and the types and contents of the packets begin
those of the other. -/
theorem C98_determined (hP : Lawful P) {magic : Bytes} {I R I' R' : Peer} (H : Honest P prof magic I R)
    (H' : Honest P prof' magic I' R') (hI : I'.rng = I.rng) (hR : R'.rng = R.rng) :
    AllSenders P prof magic I R fun role all ms => ((role.of I R).decoys.getD []).length + ms.length + 1 < 2 ^ 32 →
      AllSenders P prof' magic I' R' fun role' all' ms' => role' = role →
        ((role.of I' R').decoys.getD []).length + ms'.length + 1 < 2 ^ 32 →
        (all <+: all' ↔ (role.of I R).garbage.getD [] = (role.of I' R').garbage.getD [] ∧
          (role.of I R).decoys.getD [] = (role.of I' R').decoys.getD [] ∧ ms.map Payload.view <+: ms'.map Payload.view) := by
  obtain ⟨i, o, f, hat, -⟩ := honest_ofSent hP H
  refine all_senders hP f hat ?_
  intro role ms o1 sent hS hz hn
  obtain ⟨i', o', f', hat', -⟩ := honest_ofSent hP H'
  refine all_senders hP f' hat' ?_
  intro role' ms' o1' sent' hS' hz' hr hn'
  subst hr
  exact sent_determined hP H H' hI hR f f' hS hS' hz hz' hn hn'

/-- C98: the bytes are the same exactly if all that was said is. -/
theorem C98_same (hP : Lawful P) {magic : Bytes} {I R I' R' : Peer} (H : Honest P prof magic I R)
    (H' : Honest P prof' magic I' R') (hI : I'.rng = I.rng) (hR : R'.rng = R.rng) :
    AllSenders P prof magic I R fun role all ms => ((role.of I R).decoys.getD []).length + ms.length + 1 < 2 ^ 32 →
      AllSenders P prof' magic I' R' fun role' all' ms' => role' = role →
        ((role.of I' R').decoys.getD []).length + ms'.length + 1 < 2 ^ 32 →
        (all = all' ↔ (role.of I R).garbage.getD [] = (role.of I' R').garbage.getD [] ∧
          (role.of I R).decoys.getD [] = (role.of I' R').decoys.getD [] ∧ ms.map Payload.view = ms'.map Payload.view) := by
  obtain ⟨i, o, f, hat, -⟩ := honest_ofSent hP H
  refine all_senders hP f hat ?_
  intro role ms o1 sent hS hz hn
  obtain ⟨i', o', f', hat', -⟩ := honest_ofSent hP H'
  refine all_senders hP f' hat' ?_
  intro role' ms' o1' sent' hS' hz' hr hn'
  subst hr
  have h1 := sent_determined hP H H' hI hR f f' hS hS' hz hz' hn hn'
  have h2 := sent_determined hP H' H hI.symm hR.symm f' f hS' hS hz' hz hn' hn
  constructor
  · intro h
    obtain ⟨a, b, c⟩ := h1.1 (h ▸ List.prefix_rfl)
    obtain ⟨-, -, d⟩ := h2.1 (h ▸ List.prefix_rfl)
    exact ⟨a, b, c.eq_of_length (Nat.le_antisymm c.length_le d.length_le)⟩
  · rintro ⟨a, b, c⟩
    have c1 := h1.2 ⟨a, b, c ▸ List.prefix_rfl⟩
    have c2 := h2.2 ⟨a.symm, b.symm, c ▸ List.prefix_rfl⟩
    exact c1.eq_of_length (Nat.le_antisymm c1.length_le c2.length_le)

/-- C98 with the cryptography of the RFCs, BIP-324 and secp256k1. -/
theorem C98_real (enc : Bytes → Bytes) (henc : ∀ sk, (enc sk).length = 64) {magic : Bytes} {I R I' R' : Peer} (H : Honest (rfc (secpWith enc)) prof magic I R)
    (H' : Honest (rfc (secpWith enc)) prof' magic I' R') (hI : I'.rng = I.rng) (hR : R'.rng = R.rng) :
    AllSenders (rfc (secpWith enc)) prof magic I R fun role all ms => ((role.of I R).decoys.getD []).length + ms.length + 1 < 2 ^ 32 →
      AllSenders (rfc (secpWith enc)) prof' magic I' R' fun role' all' ms' => role' = role →
        ((role.of I' R').decoys.getD []).length + ms'.length + 1 < 2 ^ 32 →
        (all <+: all' ↔ (role.of I R).garbage.getD [] = (role.of I' R').garbage.getD [] ∧
          (role.of I R).decoys.getD [] = (role.of I' R').decoys.getD [] ∧ ms.map Payload.view <+: ms'.map Payload.view) :=
  C98_determined (C53_real_lawful enc henc) H H' hI hR

/-- Two parties with the same keys, once with garbage and decoys, and once without. -/
example := C98_real (prof := .release) (prof' := .release) ellswiftOf (fun _ => ellswiftEncode_length _)
  (magic := [0xF9, 0xBE, 0xB4, 0xD9]) real_pair quick_pair rfl rfl

end Bip324
