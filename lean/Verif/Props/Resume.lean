import Verif.Props.Oracle
import Verif.Lemmas.Ask

/-!
# C93: reading on after a packet was refused
-/

namespace Bip324

variable {P : Prims} {prof : Profile}

namespace Spec

/-- The bytes of an attacker who knows the length mask: these bodies (a header byte, contents and a tag), each behind the encrypted
length that belongs to it, in the places of the packets number `l`, `l + 1`, ... -/
def framed (P : Prims) (kL : Bytes) : Nat → List Bytes → Bytes
  | _, [] => []
  | l, b :: bs => xor (le 3 (b.length - 17)) (lengthMask P kL l) ++ b ++ framed P kL (l + 1) bs

/-- What is to be returned for these bodies when packet number `p` is the next: a body which is that packet is delivered, and then
the next one is due; any other is refused, and packet number `p` remains due. -/
inductive ReadOn (P : Prims) (kP : Bytes) : Nat → List Bytes → List (Outcome ProtocolError Payload) → Prop
  | nil (p : Nat) : ReadOn P kP p [] []
  | good {p : Nat} {m : UInt8 × Bytes} {bs : List Bytes} {xs : List (Outcome ProtocolError Payload)} :
    m.2.length ≤ 4000013 → ReadOn P kP (p + 1) bs xs →
      ReadOn P kP p (sealedPart P kP p m.1 [] m.2 :: bs) (.ok (.decrypted (m.1 :: m.2)) :: xs)
  | big {p : Nat} {b : Bytes} {bs : List Bytes} {xs : List (Outcome ProtocolError Payload)} :
    4000030 < b.length → ReadOn P kP p bs xs → ReadOn P kP p (b :: bs) (.err (.internal .packetTooBig) :: xs)
  | bad {p : Nat} {b : Bytes} {bs : List Bytes} {xs : List (Outcome ProtocolError Payload)} :
    b.length ≤ 4000030 → (∀ header contents, b ≠ sealedPart P kP p header [] contents) → ReadOn P kP p bs xs →
      ReadOn P kP p (b :: bs) (.err (.internal .decryption) :: xs)

end Spec

/-- The length cipher alone. -/
theorem decryptPacketLen_alone {kL : Bytes} {l : Nat} {i : InboundCipher} (h : i.lengthCipher.At P kL l) (hl : l + 1 < 2 ^ 32)
    (len : Nat) (hlen : len < 2 ^ 24) :
    ∃ i', i.decryptPacketLen P prof (Spec.xor (Spec.le 3 len) (Spec.lengthMask P kL l)) = (i', .ok (len + 17)) ∧
      i'.lengthCipher.At P kL (l + 1) ∧ i'.packetCipher = i.packetCipher := by
  obtain ⟨lc, hlc, he⟩ := h.crypt (prof := prof) hl _ (lengthBytes_length (P := P) kL l len)
  refine ⟨{ i with lengthCipher := lc }, ?_, hlc, rfl⟩
  unfold InboundCipher.decryptPacketLen
  rw [he, spec_xor, xorBytes_cancel (by rw [lengthMask_length, spec_le, leBytes_length]), spec_le]
  simp only [NUM_HEADER_BYTES, NUM_TAG_BYTES]
  rw [leNat_leBytes, Nat.mod_eq_of_lt (by simpa using hlen)]

theorem decryptToVec_kinds (hP : Lawful P) {kP : Bytes} {n : Nat} {i : InboundCipher} (h : i.packetCipher.At P kP n)
    (hn : n + 1 < 2 ^ 64) (ct : Bytes) (hct : 17 ≤ ct.length) :
    (4000030 < ct.length ∧ i.decryptToVec P prof ct none = (i, .err .packetTooBig)) ∨
    (ct.length ≤ 4000030 ∧
      ((∃ header contents i', ct = Spec.sealedPart P kP n header [] contents ∧ contents.length ≤ 4000013 ∧
        i'.lengthCipher = i.lengthCipher ∧ i'.packetCipher.At P kP (n + 1) ∧
        i.decryptToVec P prof ct none = (i', .ok (PacketType.fromByte header, header :: contents))) ∨
      ((∀ header contents, ct ≠ Spec.sealedPart P kP n header [] contents) ∧
        i.decryptToVec P prof ct none = (i, .err .decryption)))) := by
  have hl := bufferLen_17 (prof := prof) hct
  have hm : MAX_PACKET_SIZE_FOR_ALLOCATION = 4000014 := rfl
  by_cases hbig : ct.length - 16 > MAX_PACKET_SIZE_FOR_ALLOCATION
  · refine .inl ⟨by omega, ?_⟩
    unfold InboundCipher.decryptToVec
    simp only [hl]
    rw [if_pos hbig]
  · refine .inr ⟨by omega, ?_⟩
    rcases decrypt_at (prof := prof) hP h hn ct (zeros (ct.length - 16)) none hct (by rw [zeros_length]; omega) with
      ⟨header, contents, i', he, h1, h2, h3⟩ | ⟨he, buf', h3⟩
    · refine .inl ⟨header, contents, i', he, ?_, h1, h2, ?_⟩
      · have hx := congrArg List.length he
        rw [sealedPart_length hP] at hx
        omega
      · unfold InboundCipher.decryptToVec
        simp only [hl, h3]
        rw [if_neg hbig]
    · refine .inr ⟨he, ?_⟩
      unfold InboundCipher.decryptToVec
      simp only [hl, h3]
      rw [if_neg hbig]

/-- C93, blocking API, exactly: the reader has had `l` lengths and expects packet number `p`.  Whatever bodies of at least 17 bytes come,
each behind its length, every read takes one of them; it is delivered if it is the packet that is due, whatever was refused before it. -/
theorem C93_frames (hP : Lawful P) {kL kP : Bytes} {tail : Source} {k : ErrorKind} (hend : EndsWith true tail k) (bodies : List Bytes) :
    ∀ {l p : Nat} {r : SyncReader} {rest : Bytes}, r.cipher.lengthCipher.At P kL l → r.cipher.packetCipher.At P kP p →
    l + bodies.length < 2 ^ 32 → p + bodies.length < 2 ^ 64 → (∀ b ∈ bodies, 17 ≤ b.length ∧ b.length < 2 ^ 24 + 17) →
    SyncStreams r.reader (Spec.framed P kL l bodies ++ rest) tail →
    ∃ r' xs, r.readMany P prof bodies.length = (r', xs) ∧ Spec.ReadOn P kP p bodies xs ∧
      r'.cipher.lengthCipher.At P kL (l + bodies.length) ∧ SyncStreams r'.reader rest tail := by
  induction bodies with
  | nil =>
    intro l p r rest hl hp _ _ _ hs
    exact ⟨r, [], rfl, .nil p, hl, by simpa [Spec.framed] using hs⟩
  | cons b bodies ih =>
    intro l p r rest hl hp hn1 hn2 hb hs
    rw [List.length_cons] at hn1 hn2
    obtain ⟨hb1, hb2⟩ := hb b (by simp)
    have hb' : ∀ x ∈ bodies, 17 ≤ x.length ∧ x.length < 2 ^ 24 + 17 := fun x hx => hb x (by simp [hx])
    have hbl := lengthBytes_length (P := P) kL l (b.length - 17)
    simp only [Spec.framed, List.append_assoc] at hs
    obtain ⟨s1, he1, hs1⟩ := (sync_readExact hend hs 3).1 (by rw [List.length_append, hbl]; omega)
    rw [take_append_len _ _ hbl.symm] at he1
    rw [drop_append_len _ _ hbl.symm] at hs1
    obtain ⟨i1, hd, hl1, hp1⟩ := decryptPacketLen_alone (prof := prof) hl (by omega) (b.length - 17) (by omega)
    rw [show b.length - 17 + 17 = b.length by omega] at hd
    obtain ⟨s2, he2, hs2⟩ := (sync_readExact hend hs1 b.length).1 (by rw [List.length_append]; omega)
    rw [take_append_len _ _ rfl] at he2
    rw [drop_append_len _ _ rfl] at hs2
    rw [List.length_cons, show l + (bodies.length + 1) = l + 1 + bodies.length by omega]
    unfold SyncReader.readMany
    rcases decryptToVec_kinds (prof := prof) hP (i := i1) (hp1 ▸ hp) (by omega) b hb1 with
      ⟨hbig, hv⟩ | ⟨hsm, ⟨header, contents, i', rfl, hc, hi, hpc, hv⟩ | ⟨hno, hv⟩⟩
    · have hr : r.read P prof = (⟨i1, s2⟩, .err (.internal .packetTooBig)) := by
        unfold SyncReader.read
        rw [show NUM_LENGTH_BYTES = 3 from rfl, he1]
        simp only [hd, he2, hv]
      obtain ⟨r', xs, h1, h2, h3, h4⟩ := ih (r := ⟨i1, s2⟩) hl1 (hp1 ▸ hp) (by omega) (by omega) hb' hs2
      rw [hr]
      simp only [h1]
      exact ⟨_, _, rfl, .big hbig h2, h3, h4⟩
    · have hr : r.read P prof = (⟨i', s2⟩, .ok (.decrypted (header :: contents))) := by
        unfold SyncReader.read
        rw [show NUM_LENGTH_BYTES = 3 from rfl, he1]
        simp only [hd, he2, hv, mkDecrypted_cons]
      obtain ⟨r', xs, h1, h2, h3, h4⟩ := ih (r := ⟨i', s2⟩) (hi ▸ hl1) hpc (by omega) (by omega) hb' hs2
      rw [hr]
      simp only [h1]
      exact ⟨_, _, rfl, .good (m := (header, contents)) hc h2, h3, h4⟩
    · have hr : r.read P prof = (⟨i1, s2⟩, .err (.internal .decryption)) := by
        unfold SyncReader.read
        rw [show NUM_LENGTH_BYTES = 3 from rfl, he1]
        simp only [hd, he2, hv]
      obtain ⟨r', xs, h1, h2, h3, h4⟩ := ih (r := ⟨i1, s2⟩) hl1 (hp1 ▸ hp) (by omega) (by omega) hb' hs2
      rw [hr]
      simp only [h1]
      exact ⟨_, _, rfl, .bad hsm hno h2, h3, h4⟩

/-- The answers are determined. -/
theorem readOn_unique (hP : Lawful P) {kP : Bytes} {p : Nat} {bs : List Bytes} {xs ys : List (Outcome ProtocolError Payload)}
    (h : Spec.ReadOn P kP p bs xs) (h' : Spec.ReadOn P kP p bs ys) : xs = ys := by
  induction h generalizing ys with
  | nil => cases h'; rfl
  | @good p m bs xs hm h ih =>
    generalize hb : Spec.sealedPart P kP p m.1 [] m.2 = b at h'
    cases h' with
    | @good _ m' _ ys hm' h' =>
      obtain ⟨h1, h2⟩ := sealedPart_inj hP hb
      rw [ih h', h1, h2]
    | big hbig _ => rw [← hb, sealedPart_length hP] at hbig; omega
    | bad _ hno _ => exact absurd hb.symm (hno _ _)
  | @big p b bs xs hbig h ih =>
    cases h' with
    | good hm h' => rw [sealedPart_length hP] at hbig; omega
    | big _ h' => rw [ih h']
    | bad hs _ _ => omega
  | @bad p b bs xs hs hno h ih =>
    cases h' with
    | good hm h' => exact absurd rfl (hno _ _)
    | big hbig _ => omega
    | bad _ _ h' => rw [ih h']

theorem readOn_after {kP : Bytes} {p : Nat} {qs bs : List Bytes} {xs : List (Outcome ProtocolError Payload)}
    (hq : ∀ b ∈ qs, b.length ≤ 4000030 ∧ ∀ header contents, b ≠ Spec.sealedPart P kP p header [] contents) (h : Spec.ReadOn P kP p bs xs) :
    Spec.ReadOn P kP p (qs ++ bs) (List.replicate qs.length (.err (.internal .decryption)) ++ xs) := by
  induction qs with
  | nil => exact h
  | cons b qs ih =>
    obtain ⟨h1, h2⟩ := hq b (by simp)
    exact .bad h1 h2 (ih fun x hx => hq x (by simp [hx]))

theorem readOn_none {kP : Bytes} {p : Nat} {bs : List Bytes}
    (h : ∀ b ∈ bs, b.length ≤ 4000030 ∧ ∀ header contents, b ≠ Spec.sealedPart P kP p header [] contents) :
    Spec.ReadOn P kP p bs (List.replicate bs.length (.err (.internal .decryption))) := by
  simpa using readOn_after h (.nil p)

theorem mapIdx_shift {α : Type} (n : Nat) (f : Nat → UInt8 × Bytes → α) (ms : List (UInt8 × Bytes)) :
    (ms.mapIdx fun i m => f (n + (i + 1)) m) = ms.mapIdx fun i m => f (n + 1 + i) m := by
  congr 1; funext i m; rw [Nat.add_assoc, Nat.add_comm 1 i]

theorem readOn_all {kP : Bytes} (ms : List (UInt8 × Bytes)) : ∀ {p : Nat}, (∀ m ∈ ms, m.2.length ≤ 4000013) →
    Spec.ReadOn P kP p (ms.mapIdx fun i m => Spec.sealedPart P kP (p + i) m.1 [] m.2) (ms.map fun m => .ok (delivered m)) := by
  induction ms with
  | nil => exact fun _ => .nil _
  | cons m ms ih =>
    intro p h
    rw [List.mapIdx_cons, List.map_cons]
    refine .good (h m (by simp)) ?_
    have := ih (p := p + 1) fun x hx => h x (by simp [hx])
    rw [mapIdx_shift p (fun i m => Spec.sealedPart P kP i m.1 [] m.2)]
    exact this

/-- The bodies in an honest stream. -/
theorem packetStream_framed (hP : Lawful P) (kL kP : Bytes) (ms : List (UInt8 × Bytes)) : ∀ n,
    Spec.packetStream P kL kP n [] ms =
      Spec.framed P kL n (ms.mapIdx fun i m => Spec.sealedPart P kP (n + i) m.1 [] m.2) := by
  induction ms with
  | nil => exact fun _ => rfl
  | cons m ms ih =>
    intro n
    rw [List.mapIdx_cons, mapIdx_shift n (fun i m => Spec.sealedPart P kP i m.1 [] m.2)]
    simp only [Spec.packetStream, Spec.framed, Nat.add_zero, ih (n + 1), rawPacket_eq, sealedPart_length hP, Nat.add_sub_cancel]

theorem mem_bodies {kP : Bytes} {n : Nat} {ms : List (UInt8 × Bytes)} {b : Bytes}
    (h : b ∈ ms.mapIdx fun i m => Spec.sealedPart P kP (n + i) m.1 [] m.2) :
    ∃ i m, ms[i]? = some m ∧ b = Spec.sealedPart P kP (n + i) m.1 [] m.2 := by
  obtain ⟨i, hi, rfl⟩ := List.mem_mapIdx.1 h
  exact ⟨i, ms[i], List.getElem?_eq_getElem hi, rfl⟩

/-- C93, a damaged packet: the contents, the header or the tag of packet number `n` were changed, and all packets after it are as the
peer has sent them.  The first read and all later ones report that the packet is not authentic, one packet each, as long as no later
packet happens to be packet number `n` too. -/
theorem C93_damaged (hP : Lawful P) {kL kP : Bytes} {n : Nat} {tail : Source} {k : ErrorKind} (hend : EndsWith true tail k)
    {r : SyncReader} (hat : r.cipher.At P kL kP n) {len : Nat} {junk rest : Bytes} {ms : List (UInt8 × Bytes)}
    (hn : n + 1 + ms.length < 2 ^ 32) (hlen : len ≤ 4000013) (hj : junk.length = len + 17) (hms : ∀ m ∈ ms, m.2.length ≤ 4000013)
    (hjunk : ∀ header contents, junk ≠ Spec.sealedPart P kP n header [] contents)
    (hlater : ∀ i m, ms[i]? = some m → ∀ header contents,
      Spec.sealedPart P kP (n + 1 + i) m.1 [] m.2 ≠ Spec.sealedPart P kP n header [] contents)
    (hs : SyncStreams r.reader (Spec.xor (Spec.le 3 len) (Spec.lengthMask P kL n) ++ junk ++
      (Spec.packetStream P kL kP (n + 1) [] ms ++ rest)) tail) :
    (r.readMany P prof (ms.length + 1)).2 = List.replicate (ms.length + 1) (.err (.internal .decryption)) ∧
    SyncStreams (r.readMany P prof (ms.length + 1)).1.reader rest tail := by
  have hbodies : ∀ b ∈ junk :: ms.mapIdx (fun i m => Spec.sealedPart P kP (n + 1 + i) m.1 [] m.2),
      17 ≤ b.length ∧ b.length ≤ 4000030 ∧ ∀ header contents, b ≠ Spec.sealedPart P kP n header [] contents := by
    intro b hb
    rcases List.mem_cons.1 hb with rfl | hb
    · exact ⟨by omega, by omega, hjunk⟩
    · obtain ⟨i, m, hm, rfl⟩ := mem_bodies hb
      have := hms m (List.mem_of_getElem? hm)
      rw [sealedPart_length hP]
      exact ⟨by omega, by omega, hlater i m hm⟩
  rw [packetStream_framed hP, ← List.append_assoc] at hs
  obtain ⟨r', xs, h1, h2, -, h3⟩ := C93_frames (prof := prof) hP (kP := kP) hend
    (junk :: ms.mapIdx (fun i m => Spec.sealedPart P kP (n + 1 + i) m.1 [] m.2)) (r := r) (l := n) (p := n) (rest := rest) hat.1 hat.2
    (by simp; omega) (by simp; omega) (fun b hb => ⟨(hbodies b hb).1, by have := (hbodies b hb).2.1; omega⟩)
    (by simpa only [Spec.framed, hj, Nat.add_sub_cancel] using hs)
  have h4 := readOn_unique hP h2 (readOn_none fun b hb => (hbodies b hb).2)
  rw [List.length_cons, List.length_mapIdx] at h1 h4
  rw [h1, h4]
  exact ⟨rfl, h3⟩

namespace Spec

/-- An attacker without keys who pushes bodies of its own in front of those of the others: each packet, given as its three length bytes
and its body, has its body put at the end of a queue and replaced by that at the front; the bits in which the two lengths differ are
changed in the length bytes. -/
def pushed : List Bytes → List (Bytes × Bytes) → Bytes
  | _, [] => []
  | [], (len, body) :: packets => len ++ body ++ pushed [] packets
  | front :: queue, (len, body) :: packets =>
    xor len (le 3 ((body.length - 17) ^^^ (front.length - 17))) ++ front ++ pushed (queue ++ [body]) packets

/-- The packets of a stream as an onlooker sees them who knows their lengths. -/
def seen (P : Prims) (kL kP : Bytes) (n : Nat) (ms : List (UInt8 × Bytes)) : List (Bytes × Bytes) :=
  ms.mapIdx fun i m => ((rawPacket P kL kP (n + i) m.1 [] m.2).take 3, (rawPacket P kL kP (n + i) m.1 [] m.2).drop 3)

end Spec

theorem seen_cons (kL kP : Bytes) (n : Nat) (m : UInt8 × Bytes) (ms : List (UInt8 × Bytes)) :
    Spec.seen P kL kP n (m :: ms) = (Spec.xor (Spec.le 3 m.2.length) (Spec.lengthMask P kL n), Spec.sealedPart P kP n m.1 [] m.2) ::
      Spec.seen P kL kP (n + 1) ms := by
  unfold Spec.seen
  rw [List.mapIdx_cons, mapIdx_shift n (fun i m =>
    ((Spec.rawPacket P kL kP i m.1 [] m.2).take 3, (Spec.rawPacket P kL kP i m.1 [] m.2).drop 3))]
  simp only [Nat.add_zero, rawPacket_eq, take_append_len _ _ (lengthBytes_length (P := P) kL _ _).symm,
    drop_append_len _ _ (lengthBytes_length (P := P) kL _ _).symm]

theorem pushed_framed (hP : Lawful P) (kL kP : Bytes) (ms : List (UInt8 × Bytes)) : ∀ {n : Nat} {queue : List Bytes},
    Spec.pushed queue (Spec.seen P kL kP n ms) = Spec.framed P kL n
      ((queue ++ ms.mapIdx fun i m => Spec.sealedPart P kP (n + i) m.1 [] m.2).take ms.length) := by
  induction ms with
  | nil => intro n queue; cases queue <;> rfl
  | cons m ms ih =>
    intro n queue
    rw [seen_cons, List.mapIdx_cons, mapIdx_shift n (fun i m => Spec.sealedPart P kP i m.1 [] m.2), List.length_cons]
    cases queue with
    | nil =>
      simp only [Spec.pushed, ih, List.nil_append, List.take_succ_cons, Spec.framed, sealedPart_length hP, Nat.add_sub_cancel,
        Nat.add_zero]
    | cons front queue =>
      simp only [Spec.pushed, ih, List.cons_append, List.take_succ_cons, Spec.framed, sealedPart_length hP, Nat.add_sub_cancel,
        lengthBytes_xor, List.append_assoc, List.nil_append, ← Nat.xor_assoc, Nat.xor_self, Nat.zero_xor, Nat.add_zero]

/-- C93, an attacker without any key, who only knows where the packets on the wire begin: it puts bodies of its own, as many as it likes
and of any lengths, in front of those of the peer.  The first reads report that the packets are not authentic, one read for each of
them; the reads after them deliver all messages but the last ones, for which there were no length bytes left. -/
theorem C93_pushed (hP : Lawful P) {kL kP : Bytes} {n : Nat} {tail : Source} {k : ErrorKind} (hend : EndsWith true tail k)
    {r : SyncReader} (hat : r.cipher.At P kL kP n) {junk : List Bytes} {rest : Bytes} {ms last : List (UInt8 × Bytes)}
    (hn : n + ms.length + junk.length < 2 ^ 32) (hj : ∀ b ∈ junk, 17 ≤ b.length ∧ b.length ≤ 4000030) (hlast : last.length = junk.length)
    (hms : ∀ m ∈ ms, m.2.length ≤ 4000013)
    (hjunk : ∀ b ∈ junk, ∀ header contents, b ≠ Spec.sealedPart P kP n header [] contents)
    (hs : SyncStreams r.reader (Spec.pushed junk (Spec.seen P kL kP n (ms ++ last)) ++ rest) tail) :
    (r.readMany P prof (junk.length + ms.length)).2 =
      List.replicate junk.length (.err (.internal .decryption)) ++ ms.map (fun m => .ok (delivered m)) ∧
    SyncStreams (r.readMany P prof (junk.length + ms.length)).1.reader rest tail := by
  have hcut : (junk ++ (ms ++ last).mapIdx fun i m => Spec.sealedPart P kP (n + i) m.1 [] m.2).take (ms ++ last).length =
      junk ++ ms.mapIdx fun i m => Spec.sealedPart P kP (n + i) m.1 [] m.2 := by
    rw [List.length_append, hlast, List.mapIdx_append, ← List.append_assoc]
    exact take_append_len _ _ (by rw [List.length_append, List.length_mapIdx, Nat.add_comm])
  rw [pushed_framed hP, hcut] at hs
  obtain ⟨r', xs, h1, h2, -, h3⟩ := C93_frames (prof := prof) hP (kP := kP) hend
    (junk ++ ms.mapIdx (fun i m => Spec.sealedPart P kP (n + i) m.1 [] m.2)) (r := r) (l := n) (p := n) (rest := rest) hat.1 hat.2
    (by simp; omega) (by simp; omega) (fun b hb => by
      rcases List.mem_append.1 hb with hb | hb
      · have := hj b hb
        omega
      · obtain ⟨i, m, hm, rfl⟩ := mem_bodies hb
        have := hms m (List.mem_of_getElem? hm)
        rw [sealedPart_length hP]
        omega) hs
  have h4 := readOn_unique hP h2 (readOn_after (fun b hb => ⟨(hj b hb).2, hjunk b hb⟩) (readOn_all ms hms))
  rw [List.length_append, List.length_mapIdx] at h1
  rw [h1, h4]
  exact ⟨rfl, h3⟩

/-- C93, the asynchronous API on the same bytes, or on any others in which packet number `n` was changed: nothing is delivered, however
often it is polled and whatever follows. -/
theorem C93_async (hP : Lawful P) {kL kP : Bytes} {n : Nat} {r : AsyncReader} {es : List ReadEvent} (hn : n + es.length < 2 ^ 32)
    {len : Nat} {junk more : Bytes} (hlen : len < 2 ^ 24) (hj : junk.length = len + 17)
    (hjunk : ∀ header contents, junk ≠ Spec.sealedPart P kP n header [] contents)
    (hr : r.Reads P kL kP n (Spec.xor (Spec.le 3 len) (Spec.lengthMask P kL n) ++ junk ++ more)) :
    payloads (r.run P prof es).2 = [] ∧
    (r.reader.size < polls es → .err (.internal .decryption) ∈ (r.run P prof es).2) := by
  have hbl := lengthBytes_length (P := P) kL n len
  cases hrun : r.run P prof es with
  | mk r' xs =>
  rw [List.append_assoc] at hr
  have hns : Spec.NotSealed P (2 ^ 24 - 1) kL kP n [] (Spec.xor (Spec.le 3 len) (Spec.lengthMask P kL n) ++ (junk ++ more)) := by
    refine ⟨len, ⟨hlen, take_append_len _ _ hbl.symm⟩, by omega, by simp only [List.length_append, hbl]; omega,
      fun header contents he => ?_⟩
    rw [drop_append_len _ _ hbl.symm, take_append_len _ _ hj.symm] at he
    exact hjunk _ _ he
  obtain ⟨j, _, hp, hx, _, hf⟩ := C62_session_async hP es hr hn hrun (.forged hns)
  exact ⟨by simpa using hp, fun h => hf (by simpa using h) rfl⟩

theorem notSealed_of_open (hP : Lawful P) {kP : Bytes} {n : Nat} {b : Bytes}
    (h : P.openC (Spec.packetKey P kP (n / Spec.interval)) (Spec.packetNonce n) [] (b.take (b.length - 16)) (b.drop (b.length - 16)) = none) :
    ∀ header contents, b ≠ Spec.sealedPart P kP n header [] contents := by
  rintro header contents rfl
  have hl := sealedPart_length hP kP n header [] contents
  unfold Spec.sealedPart at h hl
  have e : (P.sealC (Spec.packetKey P kP (n / Spec.interval)) (Spec.packetNonce n) [] (header :: contents)).1.length =
      contents.length + 1 := by rw [hP.seal_length, List.length_cons]
  simp only [hl] at h
  rw [take_append_len _ _ (by rw [e]; omega), drop_append_len _ _ (by rw [e]; omega)] at h
  rw [(hP.open_iff ..).2 rfl] at h
  cases h

/-- Four messages, as they go over the wire from packet number 0 on. -/
def resumeSent : List (UInt8 × Bytes) := [(0, [1, 2, 3]), (0x80, [4]), (0, [7, 8, 9]), (0, [])]

/-- A reader to which an attacker pushes two bodies in front. -/
def resumeReader : SyncReader :=
  ⟨sampleIn, ⟨[], false,
    [.data (Spec.pushed [List.replicate 20 7, List.replicate 18 8] (Spec.seen toy (leBytes 32 77) (leBytes 32 99) 0 resumeSent)),
      .fail .unexpectedEof]⟩⟩

/-- The hypotheses of `C93_pushed` are met; the first message and the second, a decoy, are delivered after the refused bytes. -/
example :
    resumeReader.cipher.At toy (leBytes 32 77) (leBytes 32 99) 0 ∧
    (∀ header contents, List.replicate 20 7 ≠ Spec.sealedPart toy (leBytes 32 99) 0 header [] contents) ∧
    (∀ header contents, List.replicate 18 8 ≠ Spec.sealedPart toy (leBytes 32 99) 0 header [] contents) ∧
    (resumeReader.readMany toy .debug 5).2 = [.err (.internal .decryption), .err (.internal .decryption),
      .ok (delivered (0, [1, 2, 3])), .ok (delivered (0x80, [4])), .err (.fromIo .unexpectedEof)] :=
  ⟨sampleIn_at, notSealed_of_open toy_lawful (by decide +kernel), notSealed_of_open toy_lawful (by decide +kernel), by decide +kernel⟩

/-- One flipped bit, in the tag of the first packet: every read fails, and the ciphertexts that follow are not packet number 0. -/
example :
    let wire := Spec.packetStream toy (leBytes 32 77) (leBytes 32 99) 0 [] resumeSent
    let r : SyncReader := ⟨sampleIn, ⟨[], false, [.data (wire.mapIdx fun i b => if i = 22 then b ^^^ 1 else b), .fail .unexpectedEof]⟩⟩
    (∀ header contents, Spec.sealedPart toy (leBytes 32 99) 1 0x80 [] [4] ≠ Spec.sealedPart toy (leBytes 32 99) 0 header [] contents) ∧
    (∀ header contents, Spec.sealedPart toy (leBytes 32 99) 2 0 [] [7, 8, 9] ≠ Spec.sealedPart toy (leBytes 32 99) 0 header [] contents) ∧
    (∀ header contents, Spec.sealedPart toy (leBytes 32 99) 3 0 [] [] ≠ Spec.sealedPart toy (leBytes 32 99) 0 header [] contents) ∧
    (r.readMany toy .debug 5).2 = [.err (.internal .decryption), .err (.internal .decryption), .err (.internal .decryption),
      .err (.internal .decryption), .err (.fromIo .unexpectedEof)] :=
  ⟨notSealed_of_open toy_lawful (by decide +kernel), notSealed_of_open toy_lawful (by decide +kernel), notSealed_of_open toy_lawful (by decide +kernel), by decide +kernel⟩

/-- The asynchronous reader on the bytes of `resumeReader`. -/
example :
    let bs := Spec.pushed [List.replicate 20 7, List.replicate 18 8] (Spec.seen toy (leBytes 32 77) (leBytes 32 99) 0 resumeSent)
    let r : AsyncReader := ⟨sampleIn, ⟨[], 0, [.data bs]⟩, .initReadingLength⟩
    (r.run toy .debug [.poll, .cancel, .poll, .poll]).2 =
      [.err (.internal .decryption), .err (.internal .decryption), .err (.internal .decryption)] := by
  decide +kernel

end Bip324
