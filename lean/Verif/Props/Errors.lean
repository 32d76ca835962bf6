import Verif.Lemmas.Errors
import Std.Data.String.ToNat

/-!
# C70: which errors there are, and what they say
-/

namespace Bip324

variable {P : Prims} {prof : Profile}

/-! ## The table -/

theorem handshake_table {A : Api} (hA : A = syncApi ∨ A = asyncApi) (hP : Lawful P) {magic rng : Bytes} {role : Role}
    {g : Option Bytes} {d : Option (List Bytes)} {src : Source} {w : Sink} {e : ProtocolError}
    (he : (handshake A P prof magic role rng g d src w).2.2 = .err e) :
    e.cls ∈ Fn.handshake.errors ∧ ((g.getD []).length ≤ 4095 → e.cls ∈ Fn.shapedNew.errors) := by
  rcases handshake_err hA hP he with rfl | ⟨rfl, hg⟩ | rfl | rfl | rfl | rfl | ⟨k, rfl⟩
  · exact ⟨by decide, fun _ => by decide⟩
  · exact ⟨by decide, fun h => absurd hg (Nat.not_lt.2 h)⟩
  · exact ⟨by decide, fun _ => by decide⟩
  · exact ⟨by decide, fun _ => by decide⟩
  · exact ⟨by decide, fun _ => by decide⟩
  · exact ⟨by decide, fun _ => by decide⟩
  · rw [show (ProtocolError.fromIo k).cls = .io from rfl]
    exact ⟨by decide, fun _ => by decide⟩

theorem init_errInv {R : Rng} (p : SyncProtocol) (sh : Shaper R) (recorded : List Nat) :
    (ShapedSys.init p sh recorded).ErrInv :=
  ⟨fun _ _ h => (by cases h), fun _ _ h => (by cases h), fun _ h => (by cases h)⟩

theorem init_errInv_async {R : Rng} {p : AsyncProtocol} (h : p.reader.Sized) (sh : Shaper R) (recorded : List Nat) :
    (AsyncShapedSys.init p sh recorded).ErrInv :=
  ⟨fun _ _ h => (by cases h), fun _ _ h => (by cases h), fun _ _ h => (by cases h), h, fun _ h => (by cases h)⟩

/-- C70: no function reports an error that is not in its row of the table. -/
theorem C70_table (hP : Lawful P) {f : Fn} {c : ErrClass} (h : Fails P prof f c) : c ∈ f.errors := by
  cases h with
  | fromEcdh h => exact absurd h (fromEcdh_noErr hP)
  | decryptInPlace h => rcases decryptInPlace_err h with ⟨rfl, -⟩ | ⟨rfl, -⟩ <;> decide
  | decrypt h => rcases decrypt_err h with ⟨rfl, -⟩ | ⟨rfl, -⟩ | ⟨rfl, -⟩ <;> simp [Error.cls, Fn.errors]
  | decryptToVec h => rcases decryptToVec_err h with ⟨rfl, -⟩ | rfl | ⟨rfl, -⟩ <;> decide
  | encrypt h => rw [(encrypt_err h).1]; simp [Error.cls, Fn.errors]
  | new _ h => rw [newWithRng_err h]; decide
  | @sendKey h g buf e hk he =>
    rw [C18_send_key h hk g buf] at he
    simp only at he
    split at he
    · simp only [Outcome.err.injEq] at he
      subst he; decide
    · split at he
      · simp only [Outcome.err.injEq] at he
        subst he; simp [Error.cls, Fn.errors]
      · cases he
  | receiveKey _ h => rw [(receiveKey_err hP h).1]; decide
  | sendVersion h => obtain ⟨n, rfl⟩ := sendVersion_err h; simp [Error.cls, Fn.errors]
  | receiveGarbage h => rw [receiveGarbage_err h]; decide
  | receiveVersion h => rcases receiveVersion_err h with ⟨rfl, -⟩ | ⟨rfl, -⟩ <;> decide
  | handshake _ h => exact (handshake_table (.inl rfl) hP h).1
  | read h => rcases read_err h with rfl | rfl | ⟨k, rfl⟩ <;> simp [Error.cls, ProtocolError.cls, ProtocolError.fromIo, Fn.errors]
  | write h => obtain ⟨k, rfl⟩ := writer_err h; simp [ProtocolError.cls, ProtocolError.fromIo, Fn.errors]
  | handshakeAsync _ h => exact (handshake_table (.inr rfl) hP h).1
  | readAsync hs h =>
    rcases readAsync_err _ (init_sized hs) h with rfl | ⟨k, rfl⟩ <;>
      simp [Error.cls, ProtocolError.cls, ProtocolError.fromIo, Fn.errors]
  | writeAsync h => obtain ⟨k, rfl⟩ := writer_err h; simp [ProtocolError.cls, ProtocolError.fromIo, Fn.errors]
  | @shapedNew R magic role rng config rs src w e _ h =>
    cases hx : Shaper.handshake (R := R) ⟨config, rs⟩ with
    | mk sh y =>
    obtain ⟨g, d, recorded⟩ := y
    simp only [ShapedSys.new, hx, SyncProtocol.new] at h
    cases hy : Bip324.handshake syncApi P prof magic role rng g d src w with
    | mk w' z =>
    obtain ⟨log, r⟩ := z
    rw [hy] at h
    cases r with
    | panic => cases h
    | ok t => cases h
    | err e' =>
      simp only [Outcome.err.injEq] at h
      subst h
      exact (handshake_table (.inl rfl) hP (congrArg (·.2.2) hy)).2 (C37_handshake hx).1
  | shapedRead h =>
    rcases (ShapedSys.errInv_run _ (init_errInv _ _ _)).reads _ h with rfl | rfl | ⟨k, rfl⟩ <;>
      simp [Error.cls, ProtocolError.cls, ProtocolError.fromIo, Fn.errors]
  | shapedWrite h =>
    rw [(ShapedSys.errInv_run _ (init_errInv _ _ _)).returned _ _ h _ rfl]
    decide
  | @shapedNewAsync R magic role rng config rs src w e _ h =>
    cases hx : Shaper.handshake (R := R) ⟨config, rs⟩ with
    | mk sh y =>
    obtain ⟨g, d, recorded⟩ := y
    simp only [AsyncShapedSys.new, hx, AsyncProtocol.new] at h
    cases hy : Bip324.handshake asyncApi P prof magic role rng g d src w with
    | mk w' z =>
    obtain ⟨log, r⟩ := z
    rw [hy] at h
    cases r with
    | panic => cases h
    | ok t => cases h
    | err e' =>
      simp only [Outcome.err.injEq] at h
      subst h
      exact (handshake_table (.inr rfl) hP (congrArg (·.2.2) hy)).2 (C37_handshake hx).1
  | shapedReadAsync hs h =>
    rcases (AsyncShapedSys.errInv_run _ (init_errInv_async (init_sized hs) _ _)).reads _ h with rfl | ⟨k, rfl⟩ <;>
      simp [Error.cls, ProtocolError.cls, ProtocolError.fromIo, Fn.errors]
  | shapedWriteAsync hs h =>
    rw [(AsyncShapedSys.errInv_run _ (init_errInv_async (init_sized hs) _ _)).returned _ _ h _ rfl]
    decide

/-! ## The table is exact -/

/-- The class of an outcome. -/
def errClass {α : Type} : Outcome ProtocolError α → Option ErrClass
  | .err e => some e.cls
  | _ => none

theorem errClass_some {α : Type} {r : Outcome ProtocolError α} {c : ErrClass} (h : errClass r = some c) :
    ∃ e, r = .err e ∧ e.cls = c := by
  cases r with
  | err e => simp only [errClass, Option.some.injEq] at h; exact ⟨e, rfl, h⟩
  | ok a => cases h
  | panic => cases h

/-- A handshake over the toy instance in which the peer sends `src`. -/
def toyHandshake (A : Api) (rng : Bytes) (g : Option Bytes) (src : Source) :
    Outcome ProtocolError (InboundCipher × OutboundCipher × A.Session) :=
  (handshake A toy .release [1, 2, 3, 4] .initiator rng g none src ⟨[], [], []⟩).2.2

/-- The peer's key and its terminator. -/
def toyKey : Bytes := toy.ellswift (leBytes 32 99)
def toyTerminator : Bytes := [185, 184, 173, 220, 200, 155, 82, 235, 194, 116, 116, 28, 154, 84, 142, 120]

theorem toy_noTerminator {A : Api} (hA : A = syncApi ∨ A = asyncApi) :
    toyHandshake A (leBytes 32 77) none [.data (toyKey ++ zeros 4111)] = .err (.internal .noGarbageTerminator) := by
  let me : Peer := ⟨leBytes 32 77, none, none⟩
  have hk : toyKey.length = 64 := by decide +kernel
  have ht : (toyKey ++ zeros 4111).take 64 = toyKey := take_append_len _ _ hk.symm
  have hd : (toyKey ++ zeros 4111).drop 64 = zeros 4111 := by rw [← hk, List.drop_left]
  have hdir : (me.directions toy [1, 2, 3, 4] .initiator (toyKey ++ zeros 4111)).2.2.2 = toyTerminator := by
    simp only [Peer.directions, ht]
    decide +kernel
  have hno : ∀ j, ¬ Spec.OccursAt toyTerminator (zeros 4111) j := by
    rintro j ⟨pre, post, h, -⟩
    have : (185 : UInt8) ∈ zeros 4111 := by
      rw [h]; simp [toyTerminator]
    have := List.eq_of_mem_replicate this
    cases this
  have hr : (⟨[], [], []⟩ : Sink).Reliable A.retry := ⟨by simp, by simp⟩
  have hend : EndsWith A.retry [] .unexpectedEof := .inl ⟨rfl, rfl⟩
  obtain ⟨bs, hbs⟩ : ∃ bs, bs = toyKey ++ zeros 4111 := ⟨_, rfl⟩
  rw [← hbs] at ht hd hdir ⊢
  have hl : bs.length = 64 + 4111 := by rw [hbs, List.length_append, hk, zeros_length]
  have hb4 : bs.take 4 ≠ [1, 2, 3, 4] := by
    rw [hbs, List.take_append_of_le_length (by omega)]
    decide +kernel
  have hs : Streams false [.data bs] bs [] := by
    refine ⟨[.data bs], ?_, rfl, by simp [Source.bytes]⟩
    intro e he
    rw [List.mem_singleton.1 he]
    cases bs with
    | nil => simp at hl
    | cons x xs => exact .inr (.inl ⟨x, xs, rfl⟩)
  clear hbs
  obtain ⟨B, w', log, r, h1, -, -, h2⟩ := C62_library (P := toy) (prof := .release) (me := me) (magic := [1, 2, 3, 4])
    (role := .initiator) hA toy_lawful
    ⟨by decide +kernel, by decide, by decide⟩ hr hend (by rw [hl]; decide) hs
  obtain ⟨-, v, hj, hf⟩ := h2 (by rw [hl]; omega) hb4
  obtain rfl := judge_unique toy_lawful hj (.noTerminator (fun j _ => by rw [hdir, hd]; exact hno j)
    (by rw [List.length_drop, hl]; decide))
  obtain ⟨e, he, rfl⟩ := hf
  simp only [Spec.Verdict.error, Option.some.injEq] at he
  subst he
  exact congrArg (·.2.2) h1

/-- Every error of the handshake occurs; and without garbage of one's own, every one but `TooMuchGarbage`. -/
theorem toy_handshake_errors {A : Api} (hA : A = syncApi ∨ A = asyncApi) :
    (∀ c ∈ Fn.handshake.errors, ∃ rng g src, rng.length = 32 ∧ errClass (toyHandshake A rng g src) = some c) ∧
    (∀ c ∈ Fn.shapedNew.errors, ∃ rng src, rng.length = 32 ∧ errClass (toyHandshake A rng none src) = some c) := by
  have h32 : (leBytes 32 77).length = 32 := by simp
  have key : ∀ c ∈ Fn.shapedNew.errors, ∃ rng src, rng.length = 32 ∧ errClass (toyHandshake A rng none src) = some c := by
    intro c hc
    simp only [Fn.errors, List.mem_cons, List.not_mem_nil, or_false] at hc
    rcases hc with rfl | rfl | rfl | rfl | rfl | rfl
    · refine ⟨zeros 32, [], zeros_length 32, ?_⟩
      rcases hA with rfl | rfl <;> decide +kernel
    · refine ⟨leBytes 32 77, [.data ([1, 2, 3, 4] ++ zeros 60)], h32, ?_⟩
      rcases hA with rfl | rfl <;> decide +kernel
    · refine ⟨leBytes 32 77, [.data (toyKey ++ zeros 4111)], h32, ?_⟩
      rw [toy_noTerminator hA]
      rfl
    · refine ⟨leBytes 32 77, [.data (toyKey ++ toyTerminator ++ [255, 255, 255])], h32, ?_⟩
      rcases hA with rfl | rfl <;> decide +kernel
    · refine ⟨leBytes 32 77, [.data (toyKey ++ toyTerminator ++ [104, 111, 118] ++ zeros 17)], h32, ?_⟩
      rcases hA with rfl | rfl <;> decide +kernel
    · refine ⟨leBytes 32 77, [], h32, ?_⟩
      rcases hA with rfl | rfl <;> decide +kernel
  refine ⟨fun c hc => ?_, key⟩
  by_cases h : c = .tooMuchGarbage
  · subst h
    refine ⟨leBytes 32 77, some (zeros 4096), [], h32, ?_⟩
    have : (zeros 4096).length = 4096 := zeros_length _
    generalize zeros 4096 = g at this
    unfold toyHandshake handshake
    rw [newWithRng_ok (P := toy) (by decide +kernel)]
    simp only
    unfold handshakeWithInitialized HsInitialized.sendKey
    rw [if_pos (by simp [this])]
    rfl
  · obtain ⟨rng, src, h1, h2⟩ := key c (by
      simp only [Fn.errors, List.mem_cons, List.not_mem_nil, or_false] at hc ⊢
      tauto)
    exact ⟨rng, none, src, h1, h2⟩

theorem toy_read_tooBig :
    (SyncReader.read toy .release ⟨sampleIn, ⟨[], false, [.data ([177, 170, 163] ++ zeros 16777232)]⟩⟩).2
      = .err (.internal .packetTooBig) := by
  obtain ⟨b, hb⟩ : ∃ b, b = zeros 16777232 := ⟨_, rfl⟩
  have hl : b.length = 16777232 := by rw [hb, zeros_length]
  rw [← hb]
  clear hb
  have hend : EndsWith true [] .unexpectedEof := .inl ⟨rfl, rfl⟩
  have hs : SyncStreams ⟨[], false, [.data ([177, 170, 163] ++ b)]⟩ ([] ++ ([177, 170, 163] ++ b)) [] :=
    sync_streams ⟨[.data ([177, 170, 163] ++ b)], by
      intro e he
      rw [List.mem_singleton.1 he]
      exact .inr (.inl ⟨_, _, rfl⟩), rfl, by simp [Source.bytes]⟩
  obtain ⟨s1, h1, hs1⟩ := (sync_readExact hend hs 3).1 (by simp)
  have hd : sampleIn.decryptPacketLen toy .release [177, 170, 163] =
      ((sampleIn.decryptPacketLen toy .release [177, 170, 163]).1, .ok 16777232) := by decide +kernel
  rw [show ([] ++ ([177, 170, 163] ++ b) : Bytes).drop 3 = b from rfl] at hs1
  rw [show ([] ++ ([177, 170, 163] ++ b) : Bytes).take 3 = [177, 170, 163] from rfl] at h1
  obtain ⟨s2, h2, -⟩ := (sync_readExact hend hs1 16777232).1 (by omega)
  unfold SyncReader.read
  rw [show NUM_LENGTH_BYTES = 3 from rfl, h1]
  simp only
  rw [hd]
  simp only [h2]
  rw [decryptToVec_tooBig _ _ (by rw [List.length_take]; omega)]

/-- Shaped reads report what the reader reports. -/
theorem shapedRead_of_read {R : Rng} {p : SyncProtocol} {sh : Shaper R} {recorded : List Nat} {e : ProtocolError}
    (h : (p.reader.read P prof).2 = .err e) :
    .err e ∈ ((ShapedSys.init p sh recorded).run P prof [.read]).reads := by
  cases hr : p.reader.read P prof with
  | mk r x =>
  rw [hr] at h
  simp only at h
  subst h
  simp only [ShapedSys.run, List.foldl, ShapedSys.step, ShapedSys.init, ShapedReader.read, hr]
  simp

/-- A script on which reading fails because the connection is closed, and one on which it fails because the packet
is forged. -/
def closedScript : Source := []
def forgedScript : Source := [.data ([78, 85, 92] ++ zeros 17)]

/-- C70, the table is exact: over the toy instance every function reports each of the errors in its row. -/
theorem C70_attained {f : Fn} {c : ErrClass} (h : c ∈ f.errors) : Fails toy .release f c := by
  have sh : Shaper listRng := ⟨⟨.disabled, .disabled⟩, []⟩
  have hsync := toy_handshake_errors (A := syncApi) (.inl rfl)
  have hasync := toy_handshake_errors (A := asyncApi) (.inr rfl)
  cases f with
  | fromEcdh => cases h
  | decryptInPlace =>
    simp only [Fn.errors, List.mem_cons, List.not_mem_nil, or_false] at h
    rcases h with rfl | rfl
    · exact .decryptInPlace (c := sampleIn) (ct := []) (aad := none) (e := .ciphertextTooSmall) (by decide +kernel)
    · exact .decryptInPlace (c := sampleIn) (ct := zeros 17) (aad := none) (e := .decryption) (by decide +kernel)
  | decrypt =>
    simp only [Fn.errors, List.mem_cons, List.not_mem_nil, or_false] at h
    rcases h with rfl | rfl | rfl
    · exact .decrypt (c := sampleIn) (ct := []) (buf := []) (aad := none) (e := .ciphertextTooSmall) (by decide +kernel)
    · exact .decrypt (c := sampleIn) (ct := zeros 17) (buf := []) (aad := none) (e := .bufferTooSmall 1) (by decide +kernel)
    · exact .decrypt (c := sampleIn) (ct := zeros 17) (buf := [0]) (aad := none) (e := .decryption) (by decide +kernel)
  | decryptToVec =>
    simp only [Fn.errors, List.mem_cons, List.not_mem_nil, or_false] at h
    rcases h with rfl | rfl | rfl
    · exact .decryptToVec (c := sampleIn) (ct := zeros 16) (aad := none) (e := .ciphertextTooSmall) (by decide +kernel)
    · refine .decryptToVec (c := sampleIn) (ct := zeros 4000031) (aad := none) (e := .packetTooBig) ?_
      have : (zeros 4000031).length = 4000031 := zeros_length _
      generalize zeros 4000031 = b at this
      rw [decryptToVec_tooBig _ _ (by omega)]
    · exact .decryptToVec (c := sampleIn) (ct := zeros 17) (aad := none) (e := .decryption) (by decide +kernel)
  | encrypt =>
    simp only [Fn.errors, List.mem_cons, List.not_mem_nil, or_false] at h
    subst h
    exact .encrypt (c := sampleOut) (pt := [1]) (buf := zeros 20) (ty := .genuine) (aad := none) (e := .bufferTooSmall 21)
      (by decide +kernel)
  | new =>
    simp only [Fn.errors, List.mem_cons, List.not_mem_nil, or_false] at h
    subst h
    exact .new (magic := [1, 2, 3, 4]) (role := .initiator) (rng := zeros 32) (e := .secretGeneration .materialsGeneration)
      (zeros_length 32) (by decide +kernel)
  | sendKey =>
    simp only [Fn.errors, List.mem_cons, List.not_mem_nil, or_false] at h
    have hk : (⟨[1, 2, 3, 4], .initiator, leBytes 32 77, toyKey⟩ : HsInitialized).ellswift.length = 64 := by decide +kernel
    rcases h with rfl | rfl
    · refine .sendKey (g := some (zeros 4096)) (buf := []) (e := .tooMuchGarbage) hk ?_
      rw [C18_send_key _ hk]
      simp only [Option.getD_some, zeros_length]
      rw [if_pos (by decide)]
    · refine .sendKey (g := none) (buf := []) (e := .bufferTooSmall 64) hk ?_
      rw [C18_send_key _ hk]
      decide
  | receiveKey =>
    simp only [Fn.errors, List.mem_cons, List.not_mem_nil, or_false] at h
    subst h
    exact .receiveKey (h := ⟨[1, 2, 3, 4], .initiator, leBytes 32 77, toyKey, none⟩) (key := [1, 2, 3, 4] ++ zeros 60)
      (e := .v1Protocol) (by decide +kernel) (by decide +kernel)
  | sendVersion =>
    simp only [Fn.errors, List.mem_cons, List.not_mem_nil, or_false] at h
    subst h
    refine .sendVersion (h := ⟨[1, 2, 3, 4], .initiator, peerKeys toy [1, 2, 3, 4] toyKey toyKey (leBytes 32 77) .initiator, none⟩)
      (buf := []) (decoys := none) (e := .bufferTooSmall 36) ?_
    rw [C20_small _ _ _ (by decide)]
    rfl
  | receiveGarbage =>
    simp only [Fn.errors, List.mem_cons, List.not_mem_nil, or_false] at h
    subst h
    refine .receiveGarbage (h := ⟨[1, 2, 3, 4], .initiator, ⟨[], sampleIn, sampleOut⟩, toyTerminator⟩) (buf := zeros 4111)
      (e := .noGarbageTerminator) ?_
    rw [C21_no_terminator _ (by decide)]
    refine ⟨rfl, by rw [zeros_length], ?_⟩
    rintro j - ⟨pre, post, h, -⟩
    have : (185 : UInt8) ∈ zeros 4111 := by
      rw [h]; simp [toyTerminator]
    have := List.eq_of_mem_replicate this
    cases this
  | receiveVersion =>
    simp only [Fn.errors, List.mem_cons, List.not_mem_nil, or_false] at h
    rcases h with rfl | rfl
    · exact .receiveVersion (h := ⟨[1, 2, 3, 4], .initiator, ⟨[], sampleIn, sampleOut⟩, none⟩) (buf := [])
        (e := .ciphertextTooSmall) (by decide +kernel)
    · exact .receiveVersion (h := ⟨[1, 2, 3, 4], .initiator, ⟨[], sampleIn, sampleOut⟩, none⟩) (buf := zeros 17)
        (e := .decryption) (by decide +kernel)
  | handshake =>
    obtain ⟨rng, g, src, hl, hc⟩ := hsync.1 c h
    obtain ⟨e, he, rfl⟩ := errClass_some hc
    exact .handshake hl he
  | handshakeAsync =>
    obtain ⟨rng, g, src, hl, hc⟩ := hasync.1 c h
    obtain ⟨e, he, rfl⟩ := errClass_some hc
    exact .handshakeAsync hl he
  | read =>
    simp only [Fn.errors, List.mem_cons, List.not_mem_nil, or_false] at h
    rcases h with rfl | rfl | rfl
    · exact .read toy_read_tooBig
    · exact .read (r := ⟨sampleIn, ⟨[], false, forgedScript⟩⟩) (e := .internal .decryption) (by decide +kernel)
    · exact .read (r := ⟨sampleIn, ⟨[], false, closedScript⟩⟩) (e := .fromIo .unexpectedEof) (by decide +kernel)
  | readAsync =>
    simp only [Fn.errors, List.mem_cons, List.not_mem_nil, or_false] at h
    rcases h with rfl | rfl
    · exact .readAsync (r := ⟨sampleIn, ⟨[], 0, forgedScript⟩, .initReadingLength⟩) (es := [.poll]) (e := .internal .decryption)
        rfl (by decide +kernel)
    · exact .readAsync (r := ⟨sampleIn, ⟨[], 0, closedScript⟩, .initReadingLength⟩) (es := [.poll])
        (e := .fromIo .connectionAborted) rfl (by decide +kernel)
  | write =>
    simp only [Fn.errors, List.mem_cons, List.not_mem_nil, or_false] at h
    subst h
    exact .write (w := ⟨sampleOut, ⟨[.fail .brokenPipe], [], []⟩⟩) (p := .genuine [1]) (e := .fromIo .brokenPipe) (by decide +kernel)
  | writeAsync =>
    simp only [Fn.errors, List.mem_cons, List.not_mem_nil, or_false] at h
    subst h
    exact .writeAsync (w := ⟨sampleOut, ⟨[.fail .brokenPipe], [], []⟩⟩) (p := .genuine [1]) (e := .fromIo .brokenPipe)
      (by decide +kernel)
  | shapedNew =>
    obtain ⟨rng, src, hl, hc⟩ := hsync.2 c h
    obtain ⟨e, he, rfl⟩ := errClass_some hc
    refine .shapedNew (R := listRng) (magic := [1, 2, 3, 4]) (role := .initiator) (config := ⟨.disabled, .disabled⟩) (rs := [])
      (src := src) (w := ⟨[], [], []⟩) hl ?_
    unfold toyHandshake at he
    simp only [ShapedSys.new, Shaper.handshake, SyncProtocol.new]
    cases hx : handshake syncApi toy .release [1, 2, 3, 4] .initiator rng none none src ⟨[], [], []⟩ with
    | mk w' z =>
    obtain ⟨log, r⟩ := z
    rw [hx] at he
    simp only at he
    subst he
    rfl
  | shapedNewAsync =>
    obtain ⟨rng, src, hl, hc⟩ := hasync.2 c h
    obtain ⟨e, he, rfl⟩ := errClass_some hc
    refine .shapedNewAsync (R := listRng) (magic := [1, 2, 3, 4]) (role := .initiator) (config := ⟨.disabled, .disabled⟩) (rs := [])
      (src := src) (w := ⟨[], [], []⟩) hl ?_
    unfold toyHandshake at he
    simp only [AsyncShapedSys.new, Shaper.handshake, AsyncProtocol.new]
    cases hx : handshake asyncApi toy .release [1, 2, 3, 4] .initiator rng none none src ⟨[], [], []⟩ with
    | mk w' z =>
    obtain ⟨log, r⟩ := z
    rw [hx] at he
    simp only at he
    subst he
    rfl
  | shapedRead =>
    simp only [Fn.errors, List.mem_cons, List.not_mem_nil, or_false] at h
    have key : ∀ {src : Source} {e : ProtocolError}, (SyncReader.read toy .release ⟨sampleIn, ⟨[], false, src⟩⟩).2 = .err e →
        Fails toy .release .shapedRead e.cls := fun {src e} he =>
      .shapedRead (p := ⟨⟨sampleIn, ⟨[], false, src⟩⟩, ⟨sampleOut, ⟨[], [], []⟩⟩⟩) (sh := sh) (recorded := [])
        (shapedRead_of_read he)
    rcases h with rfl | rfl | rfl
    · exact key toy_read_tooBig
    · exact key (src := forgedScript) (e := .internal .decryption) (by decide +kernel)
    · exact key (src := closedScript) (e := .fromIo .unexpectedEof) (by decide +kernel)
  | shapedReadAsync =>
    simp only [Fn.errors, List.mem_cons, List.not_mem_nil, or_false] at h
    rcases h with rfl | rfl
    · exact .shapedReadAsync (R := listRng) (p := ⟨⟨sampleIn, ⟨[], 0, forgedScript⟩, .initReadingLength⟩, ⟨sampleOut, ⟨[], [], []⟩⟩⟩)
        (sh := ⟨⟨.disabled, .disabled⟩, []⟩) (recorded := []) (ls := [.read]) (e := .internal .decryption) rfl (by decide +kernel)
    · exact .shapedReadAsync (R := listRng) (p := ⟨⟨sampleIn, ⟨[], 0, closedScript⟩, .initReadingLength⟩, ⟨sampleOut, ⟨[], [], []⟩⟩⟩)
        (sh := ⟨⟨.disabled, .disabled⟩, []⟩) (recorded := []) (ls := [.read]) (e := .fromIo .connectionAborted) rfl (by decide +kernel)
  | shapedWrite =>
    simp only [Fn.errors, List.mem_cons, List.not_mem_nil, or_false] at h
    subst h
    exact .shapedWrite (R := listRng) (p := ⟨⟨sampleIn, ⟨[], false, []⟩⟩, ⟨sampleOut, ⟨[.fail .brokenPipe], [], []⟩⟩⟩)
      (sh := ⟨⟨.disabled, .disabled⟩, []⟩) (recorded := []) (ls := .call (.genuine [1]) :: List.replicate 6 .app)
      (q := .genuine [1]) (e := .fromIo .brokenPipe) (by decide +kernel)
  | shapedWriteAsync =>
    simp only [Fn.errors, List.mem_cons, List.not_mem_nil, or_false] at h
    subst h
    exact .shapedWriteAsync (R := listRng) (p := ⟨⟨sampleIn, ⟨[], 0, []⟩, .initReadingLength⟩, ⟨sampleOut, ⟨[.fail .brokenPipe], [], []⟩⟩⟩)
      (sh := ⟨⟨.disabled, .disabled⟩, []⟩) (recorded := [])
      (ls := [.call (.genuine [1]), .recv] ++ List.replicate 6 .task ++ [.resume])
      (q := .genuine [1]) (e := .fromIo .brokenPipe) rfl (by decide +kernel)

/-- C70: the table is not met by accident, and it is exactly what happens. -/
theorem C70_exact {f : Fn} {c : ErrClass} : Fails toy .release f c ↔ c ∈ f.errors :=
  ⟨C70_table toy_lawful, C70_attained⟩

/-! ## What the comments say -/

/-- C70, partial: the comments list every error of their function, but for the two `handshake`s, whose comments list
the I/O errors only; and three of the comments list errors that the function does not have. -/
theorem C70_documented_partial (hP : Lawful P) {f : Fn} {docs : List ErrClass} (hd : f.documented = some docs) :
    (f ≠ .handshake → f ≠ .handshakeAsync → ∀ c, Fails P prof f c → c ∈ docs) ∧
    (f ≠ .fromEcdh → f ≠ .receiveKey → f ≠ .sendVersion → ∀ c ∈ docs, Fails toy .release f c) := by
  constructor
  · intro h1 h2 c hc
    have hc := C70_table hP hc
    revert hc
    cases f <;> simp only [Fn.documented, Option.some.injEq, reduceCtorEq] at hd <;> subst hd <;>
      first | exact absurd rfl h1 | exact absurd rfl h2 | (cases c <;> decide)
  · intro h1 h2 h3 c hc
    apply C70_attained
    revert hc
    cases f <;> simp only [Fn.documented, Option.some.injEq, reduceCtorEq] at hd <;> subst hd <;>
      first | exact absurd rfl h1 | exact absurd rfl h2 | exact absurd rfl h3 | (cases c <;> decide)

/-- C70, what is wrong in the comments: both `handshake`s report six errors they do not list, and
`from_ecdh`, `receive_key` and `send_version` never report the errors here, which they list. -/
theorem C70_documented_counterexample :
    (∀ f ∈ [Fn.handshake, .handshakeAsync], ∀ c ∈ [ErrClass.materials, .tooMuchGarbage, .v1Protocol,
      .noGarbageTerminator, .packetTooBig, .decryption],
      Fails toy .release f c ∧ ∃ docs, f.documented = some docs ∧ c ∉ docs) ∧
    (∀ x ∈ [(Fn.fromEcdh, ErrClass.materials), (.fromEcdh, .expansion), (.receiveKey, .materials),
      (.receiveKey, .expansion), (.sendVersion, .decryption)],
      (∃ docs, x.1.documented = some docs ∧ x.2 ∈ docs) ∧
      ∀ (P : Prims) (prof : Profile), Lawful P → ¬ Fails P prof x.1 x.2) := by
  constructor
  · intro f hf c hc
    have hd : f.documented = some [.io] ∧ c ∈ f.errors ∧ c ∉ [ErrClass.io] := by
      revert hf hc
      cases f <;> cases c <;> decide
    exact ⟨C70_attained hd.2.1, _, hd.1, hd.2.2⟩
  · rintro ⟨f, c⟩ hx
    have hd : c ∈ f.documented.getD [] ∧ f.documented ≠ none ∧ c ∉ f.errors := by
      revert hx
      cases f <;> cases c <;> decide
    refine ⟨?_, fun P prof hP h => hd.2.2 (C70_table hP h)⟩
    cases hdoc : f.documented with
    | none => exact absurd hdoc hd.2.1
    | some docs =>
      rw [hdoc] at hd
      exact ⟨docs, rfl, hd.1⟩

/-! ## The texts -/

def Error.head2 : Error → List Char
  | .ciphertextTooSmall => ['C', 'i']
  | .bufferTooSmall _ => ['B', 'u']
  | .packetTooBig => ['P', 'a']
  | .noGarbageTerminator => ['M', 'o']
  | .secretGeneration _ => ['C', 'a']
  | .decryption => ['D', 'e']
  | .v1Protocol => ['T', 'h']
  | .tooMuchGarbage => ['T', 'r']

theorem text_take2 (T : DepTexts) (e : Error) : (e.text T).take 2 = e.head2 := by
  cases e <;> rfl

/-- C70: errors with the same text are the same error, whatever the texts of the dependencies: nothing is lost in a
log, and the number of bytes needed can be read off. -/
theorem C70_messages {T₁ T₂ : DepTexts} {e₁ e₂ : Error} (h : e₁.text T₁ = e₂.text T₂) : e₁ = e₂ := by
  have h2 : e₁.head2 = e₂.head2 := by rw [← text_take2 T₁, h, text_take2]
  cases e₁ <;> cases e₂ <;> first
    | rfl
    | (refine absurd h2 ?_; simp [Error.head2]; done)
    | skip
  · have := List.append_cancel_left (List.append_cancel_right h)
    rw [Nat.repr_injective (String.toList_inj.1 this)]
  · rename_i a b
    cases a <;> cases b <;> first
      | rfl
      | exact absurd (congrArg (List.take 26) h) (by
          intro hx
          exact absurd (show ("Cannot generate secrets: M".toList) = "Cannot generate secrets: E".toList from hx) (by decide))
      | exact absurd (congrArg (List.take 26) h) (by
          intro hx
          exact absurd (show ("Cannot generate secrets: E".toList) = "Cannot generate secrets: M".toList from hx) (by decide))

theorem last_two (X : List Char) (c d : Char) : (X ++ [c, d]).reverse.take 2 = [d, c] := by simp

theorem io_text_retry (T : DepTexts) (io : List Char) (k : ErrorKind) : (ProtocolError.io k .retryV1).text T io =
    ("IO error: ".toList ++ io ++ ". Suggestion: ".toList ++ "Retry with V1 protoco".toList) ++ ['l', '.'] := by
  have h : "Retry with V1 protocol".toList ++ ".".toList = "Retry with V1 protoco".toList ++ ['l', '.'] := by decide
  generalize hx : "IO error: ".toList ++ io ++ ". Suggestion: ".toList = x
  rw [List.append_assoc, ← h, ← List.append_assoc, ← hx]
  rfl

theorem io_text_abort (T : DepTexts) (io : List Char) (k : ErrorKind) : (ProtocolError.io k .abort).text T io =
    ("IO error: ".toList ++ io ++ ". Suggestion: ".toList ++ "Abort, do not retr".toList) ++ ['y', '.'] := by
  have h : "Abort, do not retry".toList ++ ".".toList = "Abort, do not retr".toList ++ ['y', '.'] := by decide
  generalize hx : "IO error: ".toList ++ io ++ ". Suggestion: ".toList = x
  rw [List.append_assoc, ← h, ← List.append_assoc, ← hx]
  rfl

/-- C70: an I/O error is never taken for an internal one; the texts of two internal errors are the same only for the
same error, and those of two I/O errors only for the same suggestion and the same text of the operating system. -/
theorem C70_protocol_messages {T₁ T₂ : DepTexts} {io₁ io₂ : List Char} {e₁ e₂ : ProtocolError}
    (h : e₁.text T₁ io₁ = e₂.text T₂ io₂) :
    (∃ e, e₁ = .internal e ∧ e₂ = .internal e) ∨
    (∃ k₁ k₂ s, e₁ = .io k₁ s ∧ e₂ = .io k₂ s ∧ io₁ = io₂) := by
  have hne : ("IO".toList : List Char) ≠ "In".toList := by decide
  cases e₁ <;> cases e₂
  · rename_i k₁ s₁ k₂ s₂
    have hs : s₁ = s₂ := by
      have h' := congrArg (fun l => l.reverse.take 2) h
      cases s₁ <;> cases s₂ <;> first
        | rfl
        | (simp only [io_text_retry, io_text_abort, last_two] at h'
           refine absurd h' ?_
           decide)
    subst hs
    have h := List.append_cancel_right (List.append_cancel_right (List.append_cancel_right h))
    exact .inr ⟨k₁, k₂, s₁, rfl, rfl, List.append_cancel_left h⟩
  · exact absurd (show "IO".toList = "In".toList from congrArg (List.take 2) h) hne
  · exact absurd (show "In".toList = "IO".toList from congrArg (List.take 2) h) hne.symm
  · rename_i a b
    have h := List.append_cancel_left (List.append_cancel_right h)
    rw [C70_messages h]
    exact .inl ⟨b, rfl, rfl⟩

/-! ## The texts are true -/

/-- C70: "need at least n bytes" is true, for every function that says it. -/
theorem C70_need (hP : Lawful P) :
    (∀ (c : OutboundCipher) pt ty aad, TellsNeed fun buf => (c.encrypt P prof pt buf ty aad).2.2) ∧
    (∀ (c : InboundCipher) ct aad, TellsNeed fun buf => (c.decrypt P prof ct buf aad).2.2) ∧
    (∀ (h : HsInitialized) g, h.ellswift.length = 64 → TellsNeed fun buf => (h.sendKey g buf).2) ∧
    (∀ (h : HsReceivedKey) decoys, (h.sessionKeys.localTerminator h.role).length = 16 →
      TellsNeed fun buf => (h.sendVersion P prof buf decoys).2) := by
  refine ⟨fun c pt ty aad => ?_, fun c ct aad => ?_, fun h g hk => ?_, fun h decoys ht => ?_⟩
  · have key : ∀ buf m, (c.encrypt P prof pt buf ty aad).2.2 = .err (.bufferTooSmall m) ↔
        m = pt.length + 20 ∧ buf.length < pt.length + 20 := by
      intro buf m
      constructor
      · intro h
        obtain ⟨a, b⟩ := encrypt_err h
        rw [Error.bufferTooSmall.injEq] at a
        exact ⟨a, b⟩
      · rintro ⟨rfl, hb⟩
        unfold OutboundCipher.encrypt
        rw [if_pos (show buf.length < OutboundCipher.encryptionBufferLen pt.length from hb)]
        rfl
    intro buf n hn buf' m
    obtain ⟨rfl, -⟩ := (key buf n).1 hn
    exact key buf' m
  · have key : ∀ buf m, (c.decrypt P prof ct buf aad).2.2 = .err (.bufferTooSmall m) ↔
        17 ≤ ct.length ∧ m = ct.length - 16 ∧ buf.length < ct.length - 16 := by
      intro buf m
      constructor
      · intro h
        rcases decrypt_err h with ⟨a, -⟩ | ⟨a, b, d⟩ | ⟨a, -⟩
        · cases a
        · rw [Error.bufferTooSmall.injEq] at a
          exact ⟨b, a, d⟩
        · cases a
      · rintro ⟨h1, rfl, h2⟩
        unfold InboundCipher.decrypt
        rw [if_neg (show ¬ ct.length < NUM_TAG_BYTES + NUM_HEADER_BYTES from by
          rw [show NUM_TAG_BYTES + NUM_HEADER_BYTES = 17 from rfl]; omega)]
        have hl : (ct.take (ct.length - NUM_TAG_BYTES)).length = ct.length - 16 := by
          rw [List.length_take, show NUM_TAG_BYTES = 16 from rfl]; omega
        simp only [hl]
        rw [if_pos h2]
    intro buf n hn buf' m
    obtain ⟨h1, rfl, -⟩ := (key buf n).1 hn
    rw [key buf' m]
    exact ⟨fun h => h.2, fun h => ⟨h1, h⟩⟩
  · have key : ∀ buf m, (h.sendKey g buf).2 = .err (.bufferTooSmall m) ↔
        (g.getD []).length ≤ 4095 ∧ m = 64 + (g.getD []).length ∧ buf.length < 64 + (g.getD []).length := by
      intro buf m
      rw [C18_send_key h hk]
      simp only
      split
      · simp; omega
      · split
        · simp; omega
        · simp; omega
    intro buf n hn buf' m
    obtain ⟨h1, rfl, -⟩ := (key buf n).1 hn
    rw [key buf' m]
    exact ⟨fun h => h.2, fun h => ⟨h1, h⟩⟩
  · obtain ⟨N, hN⟩ : ∃ N, N = 16 + 20 + ((decoys.getD []).map fun d => d.length + 20).sum := ⟨_, rfl⟩
    have e : HsReceivedKey.sendVersionLen decoys = N := by
      rw [sendVersionLen_eq, packetsLen_eq]; omega
    have key : ∀ buf m, (h.sendVersion P prof buf decoys).2 = .err (.bufferTooSmall m) ↔ m = N ∧ buf.length < N := by
      intro buf m
      by_cases hb : buf.length < N
      · rw [C20_small _ _ _ (by rw [← hN]; exact hb), ← hN]
        simp only [Outcome.err.injEq, Error.bufferTooSmall.injEq]
        exact ⟨fun h => ⟨h.symm, hb⟩, fun h => h.1.symm⟩
      · constructor
        · intro he
          exact absurd he (sendVersion_room hP ht (by omega) _)
        · exact fun h => absurd h.2 hb
    intro buf n hn buf' m
    obtain ⟨rfl, -⟩ := (key buf n).1 hn
    exact key buf' m

/-- The functions say it: each of the four calls of `C70_need` can ask for more. -/
example : (sampleOut.encrypt toy .release [1] (zeros 20) .genuine none).2.2 = .err (.bufferTooSmall 21) ∧
    (sampleIn.decrypt toy .release (zeros 17) [] none).2.2 = .err (.bufferTooSmall 1) := by
  decide +kernel

/-- C70: a ciphertext that is too small is one that must be extended: to 17 bytes at least. -/
theorem C70_extend :
    (∀ (c : InboundCipher) ct aad, (c.decryptInPlace P prof ct aad).2.2 = .err .ciphertextTooSmall ↔ ct.length < 17) ∧
    (∀ (c : InboundCipher) ct buf aad, (c.decrypt P prof ct buf aad).2.2 = .err .ciphertextTooSmall ↔ ct.length < 17) ∧
    (∀ (c : InboundCipher) ct aad, (c.decryptToVec P prof ct aad).2 = .err .ciphertextTooSmall → ct.length < 17) ∧
    (∀ (h : HsReceivedGarbage) ct, (h.receiveVersion P prof ct).2 = .err .ciphertextTooSmall → ct.length < 17) := by
  refine ⟨fun c ct aad => ⟨fun h => ?_, fun h => ?_⟩, fun c ct buf aad => ⟨fun h => ?_, fun h => ?_⟩, fun c ct aad h => ?_, fun x ct h => ?_⟩
  · rcases decryptInPlace_err h with ⟨-, h⟩ | ⟨h, -⟩
    · exact h
    · cases h
  · unfold InboundCipher.decryptInPlace
    rw [if_pos (show ct.length < NUM_TAG_BYTES + NUM_HEADER_BYTES from h)]
  · rcases decrypt_err h with ⟨-, h⟩ | ⟨h, -⟩ | ⟨h, -⟩
    · exact h
    · cases h
    · cases h
  · unfold InboundCipher.decrypt
    rw [if_pos (show ct.length < NUM_TAG_BYTES + NUM_HEADER_BYTES from h)]
  · rcases decryptToVec_err h with ⟨-, h⟩ | h | ⟨h, -⟩
    · exact h
    · cases h
    · cases h
  · rcases receiveVersion_err h with ⟨-, h⟩ | ⟨h, -⟩
    · exact h
    · cases h

/-- C70: "more than 4095 bytes of garbage before a terminator" is true, whatever the peer sends afterwards. -/
theorem C70_garbage {h : HsSentVersion} (ht : h.remoteTerminator.length = 16) {b : Bytes}
    (he : h.receiveGarbage b = .err .noGarbageTerminator) (more : Bytes) {i : Nat}
    (hi : Spec.OccursAt h.remoteTerminator (b ++ more) i) : 4095 < i := by
  obtain ⟨-, hl, hno⟩ := (C21_no_terminator h ht b _).1 he
  by_contra hle
  exact hno i (by omega) (occursAt_of_append hi (by omega))

/-- C70: "exceeds maximum 4MiB" is not true: the maximum is 4,000,014 bytes with the header, below 4 MiB. -/
theorem C70_too_big_counterexample :
    ∃ ct : Bytes, ct.length < 4 * 1024 * 1024 ∧ (sampleIn.decryptToVec toy .release ct none).2 = .err .packetTooBig := by
  obtain ⟨b, hb⟩ : ∃ b, b = zeros 4000031 := ⟨_, rfl⟩
  have hl : b.length = 4000031 := by rw [hb, zeros_length]
  refine ⟨b, by omega, ?_⟩
  rw [decryptToVec_tooBig _ _ (by omega)]

/-! ## The sources of an error -/

/-- What an application comes to that follows `source` from an error. -/
inductive Spec.Causes : ErrNode → ErrNode → Prop
  | here (x : ErrNode) : Causes x x
  | step {x y z : ErrNode} : x.source = some y → Causes y z → Causes x z

/-- C70: following the sources of an error of the I/O modules comes to an end, and there is exactly one end: the error
of the transport, that of the dependency which failed, or the error of this library if no dependency failed. -/
theorem C70_cause (e : ProtocolError) (x : ErrNode) :
    (Spec.Causes (.protocol e) x ∧ x.source = none) ↔
      x = match e with
        | .io k _ => .io k
        | .internal .decryption => .aead
        | .internal (.secretGeneration .materialsGeneration) => .secp
        | .internal (.secretGeneration .expansion) => .maxLength
        | .internal e => .lib e := by
  constructor
  · rintro ⟨h, hx⟩
    have leaf : ∀ {y : ErrNode}, y.source = none → Spec.Causes y x → x = y := by
      intro y hy hc
      cases hc with
      | here => rfl
      | step h _ => rw [hy] at h; cases h
    have step : ∀ {y z : ErrNode}, y.source = some z → Spec.Causes y x → Spec.Causes z x := by
      intro y z hy hc
      cases hc with
      | here => rw [hx] at hy; cases hy
      | step h hc => rw [hy] at h; cases h; exact hc
    cases e with
    | io k s => exact leaf rfl (step rfl h)
    | internal e =>
      have h := step rfl h
      cases e with
      | decryption => exact leaf rfl (step rfl (step rfl h))
      | secretGeneration e => cases e <;> exact leaf rfl (step rfl (step rfl h))
      | _ => exact leaf rfl h
  · rintro rfl
    cases e with
    | io k s => exact ⟨.step rfl (.here _), rfl⟩
    | internal e =>
      cases e with
      | decryption => exact ⟨.step rfl (.step rfl (.step rfl (.here _))), rfl⟩
      | secretGeneration e => cases e <;> exact ⟨.step rfl (.step rfl (.step rfl (.here _))), rfl⟩
      | _ => exact ⟨.step rfl (.here _), rfl⟩

/-- C70: an application that looks for an I/O error among the sources finds one exactly if the transport failed, and
then that of the transport. -/
theorem C70_cause_io (e : ProtocolError) (k : ErrorKind) :
    Spec.Causes (.protocol e) (.io k) ↔ ∃ s, e = .io k s := by
  constructor
  · intro h
    have := (C70_cause e (.io k)).1 ⟨h, rfl⟩
    cases e with
    | io k' s => cases this; exact ⟨s, rfl⟩
    | internal e =>
      cases e with
      | secretGeneration e => cases e <;> cases this
      | _ => cases this
  · rintro ⟨s, rfl⟩
    exact .step rfl (.here _)

/-- A read of a forged packet leads to the error of the AEAD; the end of the stream to the I/O error. -/
example : ((.protocol (.internal .decryption) : ErrNode).source.bind ErrNode.source).bind ErrNode.source = some .aead ∧
    (.protocol .eof : ErrNode).source = some (.io .unexpectedEof) := by decide

/-! ## The other texts -/

theorem infix_of {x a b c d l : List Char} (h : x = a ++ l ++ b ++ c ++ d) : l <:+: x :=
  ⟨a, b ++ c ++ d, by rw [h]; simp only [List.append_assoc]⟩

theorem stop_of {x a b c d : List Char} (h : x = a ++ b ++ c) (hc : c = d ++ ['.']) : ∃ l, x = l ++ ['.'] :=
  ⟨a ++ b ++ d, by rw [h, hc]; simp only [List.append_assoc]⟩

theorem plain_stop (s : String) (x : List Char) (h : s.toList.getLast? = some '.') (hx : x = s.toList := by exact rfl) :
    ∃ l, x = l ++ ['.'] := hx ▸ List.getLast?_eq_some_iff.1 h

theorem stops_of {x a b c l : List Char} (h : x = a ++ b ++ c) (hb : b = l ++ ['.']) (hc : c = ['.']) : ['.', '.'] <:+ x :=
  ⟨a ++ l, by rw [h, hb, hc]; simp only [List.append_assoc, List.cons_append, List.nil_append]⟩

/-- C70: the text of an error contains that of its source, whatever the dependencies print - but for the errors of type `Error`, which
print the source with `{:?}`. -/
theorem C70_reason {a b : ErrNode} (h : a.source = some b) (hl : ∀ e, a ≠ .lib e) (T : DepTexts) (D : DepDisplays) (io : List Char) :
    b.text T D io <:+: a.text T D io := by
  cases a with
  | lib e => exact absurd rfl (hl e)
  | protocol e =>
    cases e <;> cases h
    · rename_i k s
      exact infix_of (a := "IO error: ".toList) (b := ". Suggestion: ".toList) (c := s.text) (d := ".".toList) rfl
    · exact ⟨_, _, rfl⟩
  | secret e => cases e <;> cases h <;> exact ⟨_, _, rfl⟩
  | fsAead => cases h; exact ⟨_, _, rfl⟩
  | io k => cases h
  | secp => cases h
  | maxLength => cases h
  | aead => cases h

/-- C70: an error of type `Error` that has a source does not contain its text, not even with dependencies that print nothing. -/
theorem C70_reason_counterexample {e : Error} {b : ErrNode} (h : (ErrNode.lib e).source = some b) :
    ¬ b.text ⟨[], [], []⟩ ⟨[], [], []⟩ [] <:+: (ErrNode.lib e).text ⟨[], [], []⟩ ⟨[], [], []⟩ [] := by
  cases e <;> cases h
  · rename_i s; cases s <;> decide +kernel
  · decide +kernel

/-- C70: every text of an error of this library ends with a full stop, and that of a `ProtocolError::Internal` with two. -/
theorem C70_stops (T : DepTexts) (D : DepDisplays) (io : List Char) :
    (∀ e, ['.'] <:+ (ErrNode.lib e).text T D io) ∧ (∀ e, ['.'] <:+ (ErrNode.secret e).text T D io) ∧
      ['.'] <:+ ErrNode.fsAead.text T D io ∧ ∀ e, ['.', '.'] <:+ (ErrNode.protocol (.internal e)).text T D io := by
  have hl : ∀ e : Error, ∃ l, e.text T = l ++ ['.'] := by
    intro e
    have h1 : " bytes.".toList = " bytes".toList ++ ['.'] := by decide +kernel
    have h2 : ").".toList = ")".toList ++ ['.'] := by decide +kernel
    cases e
    case bufferTooSmall n => exact stop_of rfl h1
    case secretGeneration s => exact ⟨_, rfl⟩
    case decryption => exact stop_of rfl h2
    case ciphertextTooSmall => exact plain_stop "Ciphertext does not contain enough information, should be further extended." _ (by decide +kernel)
    case packetTooBig => exact plain_stop "Packet size exceeds maximum 4MiB size for automatic allocation." _ (by decide +kernel)
    case noGarbageTerminator => exact plain_stop "More than 4095 bytes of garbage received in the handshake before a terminator was sent." _ (by decide +kernel)
    case v1Protocol => exact plain_stop "The remote peer is communicating on the V1 protocol." _ (by decide +kernel)
    case tooMuchGarbage => exact plain_stop "Tried to send more than 4095 bytes of garbage in handshake." _ (by decide +kernel)
  refine ⟨fun e => ?_, fun e => ?_, ⟨_, rfl⟩, fun e => ?_⟩
  · obtain ⟨l, h⟩ := hl e
    exact ⟨l, h.symm⟩
  · cases e <;> exact ⟨_, rfl⟩
  · obtain ⟨l, h⟩ := hl e
    exact stops_of (a := "Internal error: ".toList) (b := e.text T) (c := ".".toList) rfl h (by decide +kernel)

example : (ErrNode.protocol (.internal .v1Protocol)).text ⟨[], [], []⟩ ⟨[], [], []⟩ [] =
    "Internal error: The remote peer is communicating on the V1 protocol..".toList := by decide +kernel
example : ErrNode.source (.secret .expansion) = some .maxLength ∧ ErrNode.source (.lib .decryption) = some .fsAead ∧
    ErrNode.fsAead.text ⟨[], [], []⟩ ⟨[], [], "Invalid tag".toList⟩ [] = "Unable to dycrypt: Invalid tag.".toList := by decide +kernel

end Bip324
