import Verif.Lemmas.AnyTransport
import Verif.Lemmas.IoHandshake

/-!
# The code sees the events of a script, not how the bytes are cut into reads

Two scripts with the same bytes, failures, empty reads and `Pending`s in the same order are read alike, wherever the
failures stand and however the bytes between them are cut.
-/

namespace Bip324

variable {P : Prims} {prof : Profile}

/-! ## Specification -/

/-- What a reader can notice. -/
inductive Tok where
  | byte (b : UInt8)
  /-- `Ok(0)`. -/
  | zero
  | fail (k : ErrorKind)
  | pending
deriving Repr, DecidableEq

def toks (bs : Bytes) : List Tok := bs.map .byte

def REv.events : REv → List Tok
  | .data [] => [.zero]
  | .data (b :: bs) => toks (b :: bs)
  | .fail k => [.fail k]
  | .pending => [.pending]

/-- A script without the cuts between reads. -/
def Source.events : Source → List Tok
  | [] => []
  | e :: s => e.events ++ Source.events s

@[simp] theorem Source.events_append (a b : Source) : Source.events (a ++ b) = a.events ++ b.events := by
  induction a with
  | nil => rfl
  | cons e a ih => simp [Source.events, ih]

@[simp] theorem toks_nil : toks [] = [] := rfl
@[simp] theorem toks_cons (b : UInt8) (bs : Bytes) : toks (b :: bs) = .byte b :: toks bs := rfl
@[simp] theorem toks_append (a b : Bytes) : toks (a ++ b) = toks a ++ toks b := by simp [toks]

theorem events_data {bs : Bytes} (h : bs ≠ []) (s : Source) : Source.events (.data bs :: s) = toks bs ++ s.events := by
  cases bs with
  | nil => exact absurd rfl h
  | cons b bs => rfl

/-! ## One read -/

/-- The events that one call of `read` with a buffer of `n` bytes uses up. -/
inductive Took (n : Nat) : List Tok → ReadRes → List Tok → Prop where
  | eof : Took n [] (.ok []) []
  | zero (ts) : Took n (.zero :: ts) (.ok []) ts
  | fail (k ts) : Took n (.fail k :: ts) (.err k) ts
  | data (b bs ts) : (b :: bs).length ≤ n → Took n (toks (b :: bs) ++ ts) (.ok (b :: bs)) ts
  | skip {ts x ts'} : Took n ts x ts' → Took n (.pending :: ts) x ts'

theorem took_read {n : Nat} (hn : 0 < n) (s : Source) {s' : Source} {x : ReadRes} (h : s.read n = (s', x)) :
    Took n s.events x s'.events := by
  induction s with
  | nil =>
    simp only [Source.read, Prod.mk.injEq] at h
    obtain ⟨rfl, rfl⟩ := h
    exact .eof
  | cons e s ih =>
    cases e with
    | pending => exact .skip (ih h)
    | fail k =>
      simp only [Source.read, Prod.mk.injEq] at h
      obtain ⟨rfl, rfl⟩ := h
      exact .fail k _
    | data bs =>
      simp only [Source.read] at h
      split at h
      · simp only [Prod.mk.injEq] at h
        obtain ⟨rfl, rfl⟩ := h
        cases bs with
        | nil => exact .zero _
        | cons b bs => exact .data b bs _ (by assumption)
      · simp only [Prod.mk.injEq] at h
        obtain ⟨rfl, rfl⟩ := h
        rename_i hlt
        have hne : bs ≠ [] := by rintro rfl; simp at hlt
        have hne2 : bs.drop n ≠ [] := by simp only [ne_eq, List.drop_eq_nil_iff]; omega
        rw [events_data hne, events_data hne2]
        cases ht : bs.take n with
        | nil => simp only [List.take_eq_nil_iff] at ht; rcases ht with h | h; · omega
                 · exact absurd h hne
        | cons b t =>
          have hs : bs = (b :: t) ++ bs.drop n := by rw [← ht, List.take_append_drop]
          have hl : (b :: t).length ≤ n := by rw [← ht]; simp; omega
          have := Took.data (n := n) b t (toks (bs.drop n) ++ Source.events s) hl
          rw [← List.append_assoc, ← toks_append, ← hs] at this
          exact this

/-! ## `read_exact` -/

/-- `read_exact` on events. -/
def exactT (retry : Bool) : List Tok → Nat → Bytes → List Tok × Except ErrorKind Bytes
  | ts, 0, acc => (ts, .ok acc)
  | [], _ + 1, _ => ([], .error .unexpectedEof)
  | .zero :: ts, _ + 1, _ => (ts, .error .unexpectedEof)
  | .pending :: ts, n + 1, acc => exactT retry ts (n + 1) acc
  | .fail k :: ts, n + 1, acc => if retry && k == .interrupted then exactT retry ts (n + 1) acc else (ts, .error k)
  | .byte b :: ts, n + 1, acc => exactT retry ts n (acc ++ [b])

theorem exactT_zero (retry : Bool) (ts : List Tok) (acc : Bytes) : exactT retry ts 0 acc = (ts, .ok acc) := by
  cases ts <;> rfl

theorem exactT_toks (retry : Bool) (bs : Bytes) (ts : List Tok) (n : Nat) (acc : Bytes) (h : bs.length ≤ n) :
    exactT retry (toks bs ++ ts) n acc = exactT retry ts (n - bs.length) (acc ++ bs) := by
  induction bs generalizing n acc with
  | nil => simp
  | cons b bs ih =>
    simp only [List.length_cons] at h
    obtain ⟨m, rfl⟩ : ∃ m, n = m + 1 := ⟨n - 1, by omega⟩
    show exactT retry (toks bs ++ ts) m (acc ++ [b]) = _
    rw [ih m _ (by omega)]
    simp

theorem exactT_took {retry : Bool} {n : Nat} {ts ts' : List Tok} {x : ReadRes} (h : Took n ts x ts') (hn : n ≠ 0) (acc : Bytes) :
    exactT retry ts n acc = match (motive := ReadRes → List Tok × Except ErrorKind Bytes) x with
      | .ok [] => (ts', .error .unexpectedEof)
      | .ok (b :: bs) => exactT retry ts' (n - (b :: bs).length) (acc ++ (b :: bs))
      | .err k => if retry && k == .interrupted then exactT retry ts' n acc else (ts', .error k) := by
  obtain ⟨m, rfl⟩ : ∃ m, n = m + 1 := ⟨n - 1, by omega⟩
  induction h with
  | eof => rfl
  | zero ts => rfl
  | fail k ts => rfl
  | data b bs ts hl => exact exactT_toks retry (b :: bs) ts _ acc hl
  | skip h ih => exact ih

/-- A reader shows its events. -/
def Shows {S : Type} (R : Reader S) (view : S → List Tok) : Prop :=
  ∀ s n s' x, 0 < n → R.read s n = (s', x) → Took n (view s) x (view s')

theorem shows_source : Shows Source.reader Source.events := fun _ _ _ _ hn h => took_read hn _ h

theorem shows_session {A : Api} (B : A.Abs) : Shows A.reader (fun s => (B.abs s).events) :=
  fun _ _ _ _ hn h => took_read hn _ (B.read_abs _ _ _ _ hn h)

theorem readExact_events {S : Type} {R : Reader S} {view : S → List Tok} (hv : Shows R view) (retry : Bool) (s : S) (n : Nat)
    (acc : Bytes) {s' : S} {x : Except ErrorKind Bytes} (h : R.readExact retry s n acc = (s', x)) :
    exactT retry (view s) n acc = (view s', x) := by
  fun_induction Reader.readExact R retry s n acc with
  | case1 s acc =>
    simp only [Prod.mk.injEq] at h
    obtain ⟨rfl, rfl⟩ := h
    rw [exactT_zero]
  | case2 s need acc hz s1 heq =>
    simp only [Prod.mk.injEq] at h
    obtain ⟨rfl, rfl⟩ := h
    rw [exactT_took (hv _ _ _ _ (by omega) heq) hz]
  | case3 s need acc hz s1 b bs heq ih =>
    rw [exactT_took (hv _ _ _ _ (by omega) heq) hz]
    exact ih h
  | case4 s need acc hz s1 k heq hr ih =>
    rw [exactT_took (hv _ _ _ _ (by omega) heq) hz]
    simp only
    rw [if_pos hr]
    exact ih h
  | case5 s need acc hz s1 k heq hr =>
    simp only [Prod.mk.injEq] at h
    obtain ⟨rfl, rfl⟩ := h
    rw [exactT_took (hv _ _ _ _ (by omega) heq) hz]
    simp only
    rw [if_neg hr]

/-- `read_exact` of two readers that show the same events. -/
theorem readExact_same {S T : Type} {R : Reader S} {R' : Reader T} {view : S → List Tok} {view' : T → List Tok}
    (hv : Shows R view) (hv' : Shows R' view') (retry : Bool) {s : S} {t : T} (hst : view s = view' t) (n : Nat) :
    (R.readExact retry s n).2 = (R'.readExact retry t n).2 ∧
      view (R.readExact retry s n).1 = view' (R'.readExact retry t n).1 := by
  have h1 := readExact_events hv retry s n [] (s' := (R.readExact retry s n).1) (x := (R.readExact retry s n).2) rfl
  have h2 := readExact_events hv' retry t n [] (s' := (R'.readExact retry t n).1) (x := (R'.readExact retry t n).2) rfl
  rw [hst, h2, Prod.mk.injEq] at h1
  exact ⟨h1.2.symm, h1.1.symm⟩

/-! ## The garbage loop -/

/-- The garbage loop on events. -/
def garbageT (h : HsSentVersion) : Bytes → List Tok → Outcome ProtocolError (HsReceivedGarbage × Nat × List Tok)
  | buf, ts =>
    match h.receiveGarbage buf with
    | .ok (.foundGarbage h' consumed) => .ok (h', consumed, toks (buf.drop consumed) ++ ts)
    | .err e => .err (.internal e)
    | .panic => .panic
    | .ok (.needMoreData _) =>
      match ts with
      | [] => .err .eof
      | .zero :: _ => .err .eof
      | .fail k :: _ => .err (.fromIo k)
      | .pending :: ts => garbageT h buf ts
      | .byte b :: ts => garbageT h (buf ++ [b]) ts
termination_by _ ts => ts.length

theorem garbageT_eq (h : HsSentVersion) (buf : Bytes) (ts : List Tok) :
    garbageT h buf ts = match h.receiveGarbage buf with
    | .ok (.foundGarbage h' consumed) => .ok (h', consumed, toks (buf.drop consumed) ++ ts)
    | .err e => .err (.internal e)
    | .panic => .panic
    | .ok (.needMoreData _) =>
      match ts with
      | [] => .err .eof
      | .zero :: _ => .err .eof
      | .fail k :: _ => .err (.fromIo k)
      | .pending :: ts => garbageT h buf ts
      | .byte b :: ts => garbageT h (buf ++ [b]) ts := garbageT.eq_def h buf ts

theorem garbageT_toks (h : HsSentVersion) (ht : h.remoteTerminator.length = 16) (bs : Bytes) (buf : Bytes) (ts : List Tok) :
    garbageT h buf (toks bs ++ ts) = garbageT h (buf ++ bs) ts := by
  induction bs generalizing buf with
  | nil => simp
  | cons b bs ih =>
    rw [garbageT_eq]
    cases hr : h.receiveGarbage buf with
    | panic => exact absurd hr (C21_no_panic h _)
    | err e =>
      rw [garbageT_eq, C22_failure_stable h ht _ (b :: bs) e hr]
    | ok g =>
      cases g with
      | foundGarbage h' m =>
        rw [garbageT_eq, C22_found_stable h ht _ (b :: bs) h' m hr]
        obtain ⟨i, -, hocc, -, rfl, -⟩ := (C21_found h ht _ _ _).1 hr
        have := OccursAt.le hocc
        have hd : (buf ++ b :: bs).drop (i + 16) = buf.drop (i + 16) ++ b :: bs :=
          List.drop_append_of_le_length (by omega)
        simp only [hd, toks_append, List.append_assoc]
      | needMoreData h' =>
        have := ih (buf ++ [b])
        simp only [List.append_assoc, List.cons_append, List.nil_append] at this
        exact this

/-- The results of the garbage loop, with the events that follow the terminator. -/
def garbageView : Outcome ProtocolError (HsReceivedGarbage × Nat × Bytes × Source) →
    Outcome ProtocolError (HsReceivedGarbage × Nat × List Tok)
  | .ok (h, n, buf, src) => .ok (h, n, toks (buf.drop n) ++ src.events)
  | .err e => .err e
  | .panic => .panic

theorem garbageLoop_events (h : HsSentVersion) (ht : h.remoteTerminator.length = 16) (buf : Bytes) (src : Source) :
    garbageView (garbageLoop h buf src).2 = garbageT h buf src.events := by
  induction hn : src.size using Nat.strongRecOn generalizing buf src with
  | ind n ih =>
  rw [garbageLoop_unfold]
  cases hr : h.receiveGarbage buf with
  | panic => exact absurd hr (C21_no_panic h _)
  | err e => rw [garbageT_eq, hr]; rfl
  | ok g =>
    cases g with
    | foundGarbage h' m => rw [garbageT_eq, hr]; rfl
    | needMoreData h' =>
      obtain ⟨rfl, -⟩ := (C21_need_more h ht _ h').1 hr
      simp only
      cases he : src.read 256 with
      | mk src' x =>
      have hd := Source.read_dec _ _ _ _ (by decide) he
      have hT := took_read (by decide) _ he
      have hskip : ∀ ts, garbageT h' buf (.pending :: ts) = garbageT h' buf ts := by
        intro ts
        rw [garbageT_eq, hr]
      generalize hts : src.events = ts at hT
      generalize hts' : src'.events = ts' at hT
      clear hts
      induction hT with
      | eof => rw [garbageT_eq, hr]; rfl
      | zero ts => rw [garbageT_eq, hr]; rfl
      | fail k ts => rw [garbageT_eq, hr]; rfl
      | skip h1 ih1 => rw [hskip]; exact ih1 he hd hts'
      | data b bs ts hl =>
        rw [garbageT_toks h' ht]
        have := ih src'.size (by rw [← hn]; simpa using hd) (buf ++ b :: bs) src' rfl
        rw [hts'] at this
        simp only
        exact this

theorem garbageLoop_same (h : HsSentVersion) (ht : h.remoteTerminator.length = 16) (buf : Bytes) {s t : Source}
    (hst : s.events = t.events) : garbageView (garbageLoop h buf s).2 = garbageView (garbageLoop h buf t).2 := by
  rw [garbageLoop_events h ht, garbageLoop_events h ht, hst]

/-! ## The version loop and the handshake -/

/-- The result of a handshake, with the events that the session will read. -/
def sessView {A : Api} (B : A.Abs) : Outcome ProtocolError (InboundCipher × OutboundCipher × A.Session) →
    Outcome ProtocolError (InboundCipher × OutboundCipher × List Tok)
  | .ok (i, o, s) => .ok (i, o, (B.abs s).events)
  | .err e => .err e
  | .panic => .panic

theorem readExact_session {A : Api} (B : A.Abs) {s t : A.Session} (hst : (B.abs s).events = (B.abs t).events) (n : Nat) :
    ∃ s' t' x, A.reader.readExact A.retry s n = (s', x) ∧ A.reader.readExact A.retry t n = (t', x) ∧
      (B.abs s').events = (B.abs t').events := by
  obtain ⟨h1, h2⟩ := readExact_same (shows_session B) (shows_session B) A.retry hst n
  exact ⟨_, _, _, rfl, Prod.ext rfl h1.symm, h2⟩

theorem versionLoop_same {A : Api} (B : A.Abs) (h : HsReceivedGarbage) (s t : A.Session)
    (hst : (B.abs s).events = (B.abs t).events) :
    sessView B (versionLoop A P prof h s).2 = sessView B (versionLoop A P prof h t).2 := by
  induction hn : A.reader.size s using Nat.strongRecOn generalizing h s t with
  | ind n ih =>
  rw [versionLoop_unfold, versionLoop_unfold]
  obtain ⟨s1, t1, x, e1, e2, hst1⟩ := readExact_session B hst NUM_LENGTH_BYTES
  rw [e1, e2]
  have hsz := A.reader.readExact_size A.retry _ _ _ _ _ e1
  cases x with
  | error k => rfl
  | ok lengthBytes =>
  have hsz := hsz.2 (by decide) ⟨_, rfl⟩
  simp only
  cases h.decryptPacketLen P prof lengthBytes with
  | mk h1 z =>
  cases z with
  | panic => rfl
  | err e => rfl
  | ok packetLen =>
  simp only
  split
  · rfl
  obtain ⟨s2, t2, x, e1, e2, h2⟩ := readExact_session B hst1 packetLen
  rw [e1, e2]
  have hsz2 := (A.reader.readExact_size A.retry _ _ _ _ _ e1).1
  cases x with
  | error k => rfl
  | ok packetBytes =>
  simp only
  cases h1.receiveVersion P prof packetBytes with
  | mk buf z =>
  cases z with
  | panic => rfl
  | err e => rfl
  | ok v =>
  cases v with
  | complete c => simp only [sessView, h2]
  | decoy h3 => exact ih _ (by omega) h3 s2 t2 h2 rfl

theorem handshakeWithInitialized_same {A : Api} (B : A.Abs) (hP : Lawful P) (h : HsInitialized) (g : Option Bytes)
    (d : Option (List Bytes)) {s t : Source} (hst : s.events = t.events) (w : Sink) :
    (handshakeWithInitialized A P prof h g d s w).1 = (handshakeWithInitialized A P prof h g d t w).1 ∧
      sessView B (handshakeWithInitialized A P prof h g d s w).2.2 =
        sessView B (handshakeWithInitialized A P prof h g d t w).2.2 := by
  have src_same : ∀ {s t : Source} (_ : s.events = t.events) (n : Nat), ∃ s' t' x,
      Source.reader.readExact A.retry s n = (s', x) ∧ Source.reader.readExact A.retry t n = (t', x) ∧
      s'.events = t'.events := by
    intro s t hst n
    obtain ⟨h1, h2⟩ := readExact_same shows_source shows_source A.retry hst n
    exact ⟨_, _, _, rfl, Prod.ext rfl h1.symm, h2⟩
  unfold handshakeWithInitialized
  cases h.sendKey g (zeros (HsInitialized.sendKeyLen g)) with
  | mk keyBuffer r =>
  cases r with
  | panic => exact ⟨rfl, rfl⟩
  | err e => exact ⟨rfl, rfl⟩
  | ok h1 =>
  simp only
  cases w.send A.retry keyBuffer with
  | mk w r =>
  cases r with
  | error k => exact ⟨rfl, rfl⟩
  | ok u =>
  simp only
  obtain ⟨s1, t1, x, e1, e2, hst⟩ := src_same hst NUM_ELLIGATOR_SWIFT_BYTES
  rw [e1, e2]
  cases x with
  | error k => exact ⟨rfl, rfl⟩
  | ok key =>
  simp only
  cases hk : h1.receiveKey P key with
  | panic => exact ⟨rfl, rfl⟩
  | err e => exact ⟨rfl, rfl⟩
  | ok h2 =>
  simp only
  cases hv : h2.sendVersion P prof (zeros (HsReceivedKey.sendVersionLen d)) d with
  | mk vb r =>
  cases r with
  | panic => exact ⟨rfl, rfl⟩
  | err e => exact ⟨rfl, rfl⟩
  | ok h3 =>
  have ht : h3.remoteTerminator.length = 16 := by
    rw [sendVersion_terminator hv]; exact receiveKey_terminators hP hk _
  simp only
  cases w.send A.retry vb with
  | mk w r =>
  cases r with
  | error k => exact ⟨rfl, rfl⟩
  | ok u =>
  simp only
  obtain ⟨s2, t2, x, e1, e2, hst⟩ := src_same hst NUM_GARBAGE_TERMINATOR_BYTES
  rw [e1, e2]
  cases x with
  | error k => exact ⟨rfl, rfl⟩
  | ok buf =>
  simp only
  have hg := garbageLoop_same h3 ht buf hst
  cases hg1 : garbageLoop h3 buf s2 with
  | mk l1 x1 =>
  cases hg2 : garbageLoop h3 buf t2 with
  | mk l2 x2 =>
  rw [hg1, hg2] at hg
  simp only at hg
  cases x1 with
  | panic => cases x2 with
    | panic => exact ⟨rfl, rfl⟩
    | err e => simp [garbageView] at hg
    | ok v => simp [garbageView] at hg
  | err e => cases x2 with
    | panic => simp [garbageView] at hg
    | err e => simp only [garbageView, Outcome.err.injEq] at hg; subst hg; exact ⟨rfl, rfl⟩
    | ok v => simp [garbageView] at hg
  | ok v =>
  cases x2 with
  | panic => simp [garbageView] at hg
  | err e => simp [garbageView] at hg
  | ok v' =>
  obtain ⟨h4, n, gb, s3⟩ := v
  obtain ⟨h4', n', gb', t3⟩ := v'
  simp only [garbageView, Outcome.ok.injEq, Prod.mk.injEq] at hg
  obtain ⟨rfl, rfl, hev⟩ := hg
  simp only
  have hmk : ∀ l src, (B.abs (A.mkSession l src)).events = toks l ++ src.events := by
    intro l src
    rw [B.mk_abs]
    split
    · rename_i hl; subst hl; rfl
    · rename_i hl; exact events_data hl src
  have := versionLoop_same (P := P) (prof := prof) B h4 (A.mkSession (gb.drop n) s3) (A.mkSession (gb'.drop n) t3)
    (by rw [hmk, hmk]; exact hev)
  exact ⟨trivial, this⟩

theorem handshake_same {A : Api} (B : A.Abs) (hP : Lawful P) (magic : Bytes) (role : Role) (rng : Bytes) (g : Option Bytes)
    (d : Option (List Bytes)) {s t : Source} (hst : s.events = t.events) (w : Sink) :
    (handshake A P prof magic role rng g d s w).1 = (handshake A P prof magic role rng g d t w).1 ∧
      sessView B (handshake A P prof magic role rng g d s w).2.2 =
        sessView B (handshake A P prof magic role rng g d t w).2.2 := by
  unfold handshake
  split
  · exact ⟨rfl, rfl⟩
  · exact ⟨rfl, rfl⟩
  · exact handshakeWithInitialized_same B hP _ g d hst w

/-! ## Reading packets -/

theorem syncRead_same {c : InboundCipher} {s t : SyncSession} (hst : s.abs.events = t.abs.events) :
    ∃ c' s' t' x, SyncReader.read P prof ⟨c, s⟩ = (⟨c', s'⟩, x) ∧ SyncReader.read P prof ⟨c, t⟩ = (⟨c', t'⟩, x) ∧
      s'.abs.events = t'.abs.events := by
  have rd : ∀ {s t : SyncSession} (_ : s.abs.events = t.abs.events) (n : Nat), ∃ s' t' x,
      SyncSession.reader.readExact true s n = (s', x) ∧ SyncSession.reader.readExact true t n = (t', x) ∧
      s'.abs.events = t'.abs.events := fun hst n => readExact_session syncAbs hst n
  unfold SyncReader.read
  obtain ⟨s1, t1, x, e1, e2, h1⟩ := rd hst NUM_LENGTH_BYTES
  simp only [e1, e2]
  cases x with
  | error k => exact ⟨_, _, _, _, rfl, rfl, h1⟩
  | ok lengthBytes =>
  simp only
  cases c.decryptPacketLen P prof lengthBytes with
  | mk c z =>
  cases z with
  | panic => exact ⟨_, _, _, _, rfl, rfl, h1⟩
  | err e => exact ⟨_, _, _, _, rfl, rfl, h1⟩
  | ok n =>
  simp only
  obtain ⟨s2, t2, x, e1, e2, h2⟩ := rd h1 n
  simp only [e1, e2]
  cases x with
  | error k => exact ⟨_, _, _, _, rfl, rfl, h2⟩
  | ok packetBytes =>
  simp only
  cases c.decryptToVec P prof packetBytes none with
  | mk c z =>
  cases z with
  | panic => exact ⟨_, _, _, _, rfl, rfl, h2⟩
  | err e => exact ⟨_, _, _, _, rfl, rfl, h2⟩
  | ok v =>
  obtain ⟨ty, pb⟩ := v
  simp only
  cases Payload.mkDecrypted prof pb with
  | none => exact ⟨_, _, _, _, rfl, rfl, h2⟩
  | some p => exact ⟨_, _, _, _, rfl, rfl, h2⟩

/-! ## Polls -/

/-- The events that one `poll_read` uses up. -/
inductive Polled (n : Nat) : List Tok → PollRead → List Tok → Prop where
  | eof : Polled n [] (.ready (.ok [])) []
  | zero (ts) : Polled n (.zero :: ts) (.ready (.ok [])) ts
  | fail (k ts) : Polled n (.fail k :: ts) (.ready (.err k)) ts
  | data (b bs ts) : (b :: bs).length ≤ n → Polled n (toks (b :: bs) ++ ts) (.ready (.ok (b :: bs))) ts
  | pending (ts) : Polled n (.pending :: ts) .pending ts

theorem polled_source {n : Nat} (hn : 0 < n) (s : Source) {s' : Source} {x : PollRead} (h : s.pollRead n = (s', x)) :
    Polled n s.events x s'.events := by
  cases s with
  | nil =>
    simp only [Source.pollRead, Prod.mk.injEq] at h
    obtain ⟨rfl, rfl⟩ := h
    exact .eof
  | cons e s =>
    cases e with
    | pending =>
      simp only [Source.pollRead, Prod.mk.injEq] at h
      obtain ⟨rfl, rfl⟩ := h
      exact .pending _
    | fail k =>
      simp only [Source.pollRead, Prod.mk.injEq] at h
      obtain ⟨rfl, rfl⟩ := h
      exact .fail k _
    | data bs =>
      have hr : Source.read (.data bs :: s) n = ((Source.pollRead (.data bs :: s) n).1,
          (Source.read (.data bs :: s) n).2) ∧
          (Source.pollRead (.data bs :: s) n).2 = .ready (Source.read (.data bs :: s) n).2 ∧
          ∃ x, (Source.read (.data bs :: s) n).2 = .ok x := by
        simp only [Source.read, Source.pollRead]
        split
        · exact ⟨rfl, rfl, _, rfl⟩
        · exact ⟨rfl, rfl, _, rfl⟩
      obtain ⟨h1, h2, y, h3⟩ := hr
      have hT := took_read hn _ h1
      rw [h] at h2 hT
      simp only at h2 hT
      rw [h2]
      rw [h3] at hT ⊢
      have hnp : ∀ ts, Source.events (.data bs :: s) ≠ .pending :: ts := by
        intro ts; cases bs <;> simp [Source.events, REv.events]
      generalize Source.events (.data bs :: s) = ts at hT hnp
      generalize Source.events s' = ts' at hT
      cases hT with
      | eof => exact .eof
      | zero ts => exact .zero _
      | data b bs ts hl => exact .data b bs _ hl
      | skip hh => exact absurd rfl (hnp _)

theorem AsyncSession.pollRead_abs (s : AsyncSession) (n : Nat) (s' : AsyncSession) (x : PollRead)
    (h : s.pollRead n = (s', x)) : s.abs.pollRead n = (s'.abs, x) := by
  obtain ⟨l, p, i⟩ := s
  by_cases hp : p < l.length
  · simp only [AsyncSession.pollRead] at h
    rw [if_pos hp] at h
    simp only [Prod.mk.injEq] at h
    obtain ⟨rfl, rfl⟩ := h
    simp only [AsyncSession.abs, List.length_drop]
    rw [if_pos hp, Source.pollRead]
    by_cases hle : l.length - p ≤ n
    · rw [if_pos (by simpa using hle), if_neg (by omega), List.take_of_length_le]
      simp; omega
    · rw [if_neg (by simpa using hle), if_pos (by omega), Nat.min_eq_right (by omega), List.drop_drop]
  · simp only [AsyncSession.pollRead] at h
    rw [if_neg hp] at h
    simp only [Prod.mk.injEq] at h
    obtain ⟨rfl, rfl⟩ := h
    simp only [AsyncSession.abs]
    rw [if_neg hp, if_neg hp]

/-- The inner loops of the asynchronous `read` on events: how the loop ends, what is left, the buffer, the position. -/
def fillT : List Tok → Bytes → Nat → Option (Option ErrorKind) × List Tok × Bytes × Nat
  | ts, buf, n =>
    if n < buf.length then
      match ts with
      | [] => (some (some .connectionAborted), [], buf, n)
      | .zero :: ts => (some (some .connectionAborted), ts, buf, n)
      | .fail k :: ts => (some (some k), ts, buf, n)
      | .pending :: ts => (some none, ts, buf, n)
      | .byte b :: ts => fillT ts (writeAt buf n [b]) (n + 1)
    else (none, ts, buf, n)
termination_by ts _ _ => ts.length

theorem fillT_eq (ts : List Tok) (buf : Bytes) (n : Nat) :
    fillT ts buf n = if n < buf.length then
      match ts with
      | [] => (some (some .connectionAborted), [], buf, n)
      | .zero :: ts => (some (some .connectionAborted), ts, buf, n)
      | .fail k :: ts => (some (some k), ts, buf, n)
      | .pending :: ts => (some none, ts, buf, n)
      | .byte b :: ts => fillT ts (writeAt buf n [b]) (n + 1)
    else (none, ts, buf, n) := fillT.eq_def ts buf n

theorem writeAt_cons (buf : Bytes) (n : Nat) (b : UInt8) (bs : Bytes) (h : n < buf.length) :
    writeAt (writeAt buf n [b]) (n + 1) bs = writeAt buf n (b :: bs) := by
  unfold writeAt
  have h1 : (List.take n buf ++ [b]).length = n + 1 := by simp; omega
  rw [List.take_append_of_le_length (by rw [h1]; omega), List.take_of_length_le (by rw [h1]; omega), List.drop_append, h1,
    List.drop_of_length_le (by rw [h1]; omega), List.nil_append, List.drop_drop]
  simp only [List.append_assoc, List.singleton_append, List.length_cons, List.length_nil]
  have : n + (0 + 1) + (n + 1 + bs.length - (n + 1)) = n + (bs.length + 1) := by omega
  rw [this]

theorem fillT_toks (bs : Bytes) (ts : List Tok) (buf : Bytes) (n : Nat) (h : n + bs.length ≤ buf.length) :
    fillT (toks bs ++ ts) buf n = fillT ts (writeAt buf n bs) (n + bs.length) := by
  induction bs generalizing buf n with
  | nil => simp [writeAt]
  | cons b bs ih =>
    simp only [List.length_cons] at h
    rw [toks_cons, List.cons_append, fillT_eq, if_pos (by omega)]
    simp only
    rw [ih _ _ (by rw [writeAt_length (by simp; omega)]; omega), writeAt_cons _ _ _ _ (by omega)]
    simp only [List.length_cons]
    congr 1
    omega

def FillResult.view : FillResult → Option (Option ErrorKind) × List Tok × Bytes × Nat
  | .full s buf n => (none, s.abs.events, buf, n)
  | .pending s buf n => (some none, s.abs.events, buf, n)
  | .err s buf n k => (some (some k), s.abs.events, buf, n)

theorem pollFill_events (s : AsyncSession) (buf : Bytes) (n : Nat) :
    (pollFill s buf n).view = fillT s.abs.events buf n := by
  induction hs : s.size using Nat.strongRecOn generalizing s buf n with
  | ind m ih =>
  rw [pollFill_unfold]
  by_cases hlt : n < buf.length
  · rw [if_pos hlt]
    cases he : s.pollRead (buf.length - n) with
    | mk s' x =>
    have hd := AsyncSession.pollRead_dec _ _ _ _ (by omega) he
    have hp := polled_source (by omega) _ (AsyncSession.pollRead_abs _ _ _ _ he)
    generalize hts : s.abs.events = ts at hp
    generalize hts' : s'.abs.events = ts' at hp
    cases hp with
    | eof => rw [fillT_eq, if_pos hlt]; simp only [FillResult.view, hts']
    | zero ts => rw [fillT_eq, if_pos hlt]; simp only [FillResult.view, hts']
    | fail k ts => rw [fillT_eq, if_pos hlt]; simp only [FillResult.view, hts']
    | pending ts => rw [fillT_eq, if_pos hlt]; simp only [FillResult.view, hts']
    | data b bs ts hl =>
      rw [fillT_toks _ _ _ _ (by omega), ← hts']
      exact ih _ (by rw [← hs]; simpa using hd) _ _ _ rfl
  · rw [if_neg hlt, fillT_eq, if_neg hlt]
    rfl

/-- Two readers that differ in the cuts only. -/
def AsyncReader.Same (a b : AsyncReader) : Prop :=
  a.cipher = b.cipher ∧ a.state = b.state ∧ a.reader.abs.events = b.reader.abs.events

theorem pollFill_same {s t : AsyncSession} (hst : s.abs.events = t.abs.events) (buf : Bytes) (n : Nat) :
    (pollFill s buf n).view = (pollFill t buf n).view := by
  rw [pollFill_events, pollFill_events, hst]

theorem pollPayload_same {s t : AsyncSession} (hst : s.abs.events = t.abs.events) (c : InboundCipher) (buf : Bytes) (n : Nat) :
    (AsyncReader.pollPayload P prof c s buf n).2 = (AsyncReader.pollPayload P prof c t buf n).2 ∧
      (AsyncReader.pollPayload P prof c s buf n).1.Same (AsyncReader.pollPayload P prof c t buf n).1 := by
  have hf := pollFill_same hst buf n
  unfold AsyncReader.pollPayload
  cases h1 : pollFill s buf n with
  | pending s1 b1 n1 =>
    cases h2 : pollFill t buf n with
    | pending t1 b2 n2 =>
      rw [h1, h2] at hf
      simp only [FillResult.view, Prod.mk.injEq, true_and] at hf
      obtain ⟨he, rfl, rfl⟩ := hf
      exact ⟨rfl, rfl, rfl, he⟩
    | err t1 b2 n2 k2 => rw [h1, h2] at hf; simp [FillResult.view] at hf
    | full t1 b2 n2 => rw [h1, h2] at hf; simp [FillResult.view] at hf
  | err s1 b1 n1 k1 =>
    cases h2 : pollFill t buf n with
    | pending t1 b2 n2 => rw [h1, h2] at hf; simp [FillResult.view] at hf
    | err t1 b2 n2 k2 =>
      rw [h1, h2] at hf
      simp only [FillResult.view, Prod.mk.injEq, Option.some.injEq] at hf
      obtain ⟨rfl, he, rfl, rfl⟩ := hf
      exact ⟨rfl, rfl, rfl, he⟩
    | full t1 b2 n2 => rw [h1, h2] at hf; simp [FillResult.view] at hf
  | full s1 b1 n1 =>
    cases h2 : pollFill t buf n with
    | pending t1 b2 n2 => rw [h1, h2] at hf; simp [FillResult.view] at hf
    | err t1 b2 n2 k2 => rw [h1, h2] at hf; simp [FillResult.view] at hf
    | full t1 b2 n2 =>
      rw [h1, h2] at hf
      simp only [FillResult.view, Prod.mk.injEq, true_and] at hf
      obtain ⟨he, rfl, rfl⟩ := hf
      simp only
      cases InboundCipher.decryptionBufferLen prof b1.length with
      | none => exact ⟨rfl, rfl, rfl, he⟩
      | some m =>
      simp only
      cases c.decrypt P prof b1 (zeros m) none with
      | mk c z =>
      obtain ⟨pb, z⟩ := z
      cases z with
      | panic => exact ⟨rfl, rfl, rfl, he⟩
      | err e => exact ⟨rfl, rfl, rfl, he⟩
      | ok v =>
      simp only
      cases Payload.mkDecrypted prof pb with
      | none => exact ⟨rfl, rfl, rfl, he⟩
      | some p => exact ⟨rfl, rfl, rfl, he⟩

theorem poll_same {a b : AsyncReader} (h : a.Same b) :
    (a.poll P prof).2 = (b.poll P prof).2 ∧ (a.poll P prof).1.Same (b.poll P prof).1 := by
  obtain ⟨c, s, st⟩ := a
  obtain ⟨c', t, st'⟩ := b
  obtain ⟨rfl, rfl, hst⟩ := h
  simp only at hst
  unfold AsyncReader.poll
  cases st with
  | readingPayload buf n => exact pollPayload_same hst c buf n
  | readingLength buf n =>
  have hf := pollFill_same hst buf n
  simp only
  cases h1 : pollFill s buf n with
  | pending s1 b1 n1 =>
    cases h2 : pollFill t buf n with
    | pending t1 b2 n2 =>
      rw [h1, h2] at hf
      simp only [FillResult.view, Prod.mk.injEq, true_and] at hf
      obtain ⟨he, rfl, rfl⟩ := hf
      exact ⟨rfl, rfl, rfl, he⟩
    | err t1 b2 n2 k2 => rw [h1, h2] at hf; simp [FillResult.view] at hf
    | full t1 b2 n2 => rw [h1, h2] at hf; simp [FillResult.view] at hf
  | err s1 b1 n1 k1 =>
    cases h2 : pollFill t buf n with
    | pending t1 b2 n2 => rw [h1, h2] at hf; simp [FillResult.view] at hf
    | err t1 b2 n2 k2 =>
      rw [h1, h2] at hf
      simp only [FillResult.view, Prod.mk.injEq, Option.some.injEq] at hf
      obtain ⟨rfl, he, rfl, rfl⟩ := hf
      exact ⟨rfl, rfl, rfl, he⟩
    | full t1 b2 n2 => rw [h1, h2] at hf; simp [FillResult.view] at hf
  | full s1 b1 n1 =>
    cases h2 : pollFill t buf n with
    | pending t1 b2 n2 => rw [h1, h2] at hf; simp [FillResult.view] at hf
    | err t1 b2 n2 k2 => rw [h1, h2] at hf; simp [FillResult.view] at hf
    | full t1 b2 n2 =>
      rw [h1, h2] at hf
      simp only [FillResult.view, Prod.mk.injEq, true_and] at hf
      obtain ⟨he, rfl, rfl⟩ := hf
      simp only
      cases c.decryptPacketLen P prof b1 with
      | mk c z =>
      cases z with
      | panic => exact ⟨rfl, rfl, rfl, he⟩
      | err e => exact ⟨rfl, rfl, rfl, he⟩
      | ok m => exact pollPayload_same he c _ 0

end Bip324
