import Verif.Model.Futures
import Verif.Props.Handshake

/-! # Helper lemmas on transports and the I/O handshake -/

namespace Bip324

variable {P : Prims} {prof : Profile}

/-! ## Streams -/

/-- The bytes of a script. -/
def Source.bytes : Source → Bytes
  | [] => []
  | .data bs :: s => bs ++ Source.bytes s
  | _ :: s => Source.bytes s

@[simp] theorem Source.bytes_append (a b : Source) :
    Source.bytes (a ++ b) = Source.bytes a ++ Source.bytes b := by
  induction a with
  | nil => rfl
  | cons e a ih => cases e <;> simp [Source.bytes, ih]

/-- A script without failures and early ends: non-empty data, `Pending`s, and, if `intr`,
interrupted calls. -/
def Smooth (intr : Bool) (s : Source) : Prop :=
  ∀ e ∈ s, e = .pending ∨ (∃ b bs, e = .data (b :: bs)) ∨ (intr = true ∧ e = .fail .interrupted)

/-- What happens after the bytes of interest: end of stream, or a failure of kind `k`. -/
def EndsWith (intr : Bool) (tail : Source) (k : ErrorKind) : Prop :=
  (tail = [] ∧ k = .unexpectedEof) ∨ (∃ t, tail = .data [] :: t ∧ k = .unexpectedEof) ∨
    (∃ t, tail = .fail k :: t ∧ ¬ (intr = true ∧ k = .interrupted))

/-- The reader delivers exactly the bytes `bs`, in some segmentation, and then does `tail`. -/
def Streams (intr : Bool) (s : Source) (bs : Bytes) (tail : Source) : Prop :=
  ∃ c, Smooth intr c ∧ s = c ++ tail ∧ c.bytes = bs

theorem Smooth.mono {intr : Bool} {s : Source} (h : Smooth false s) : Smooth intr s := by
  intro e he
  rcases h e he with h | h | h
  · exact .inl h
  · exact .inr (.inl h)
  · exact absurd h.1 (by decide)

theorem Streams.mono {intr : Bool} {s tail : Source} {bs : Bytes} (h : Streams false s bs tail) :
    Streams intr s bs tail := by
  obtain ⟨c, h1, h2⟩ := h
  exact ⟨c, h1.mono, h2⟩

theorem Smooth.cons {intr : Bool} {e : REv} {s : Source} (h : Smooth intr (e :: s)) :
    Smooth intr s := fun x hx => h x (by simp [hx])

/-- Unfolding `read_exact`. -/
theorem Reader.readExact_eq {σ : Type} (R : Reader σ) (retry : Bool) (s : σ) (need : Nat)
    (acc : Bytes) :
    R.readExact retry s need acc =
      if need = 0 then (s, .ok acc)
      else
        match R.read s need with
        | (s', .ok []) => (s', .error .unexpectedEof)
        | (s', .ok (b :: bs)) => R.readExact retry s' (need - (b :: bs).length) (acc ++ (b :: bs))
        | (s', .err k) =>
          if retry && k == .interrupted then R.readExact retry s' need acc else (s', .error k) := by
  rw [Reader.readExact]
  split
  · rfl
  · split <;> simp_all

theorem Reader.readExact_zero {σ : Type} (R : Reader σ) (retry : Bool) (s : σ) (acc : Bytes) :
    R.readExact retry s 0 acc = (s, .ok acc) := by
  rw [Reader.readExact_eq]; simp

theorem readExact_pending (retry : Bool) (s : Source) (n : Nat) (acc : Bytes) :
    Source.reader.readExact retry (.pending :: s) n acc =
      if n = 0 then (.pending :: s, .ok acc) else Source.reader.readExact retry s n acc := by
  rw [Reader.readExact_eq]
  split
  · rfl
  · rename_i h
    conv => rhs; rw [Reader.readExact_eq, if_neg h]
    have : Source.reader.read (.pending :: s) n = Source.reader.read s n := rfl
    rw [this]

/-- `read_exact` on a stream. -/
theorem readExact_streams {retry intr : Bool} (hri : intr = true → retry = true) {tail : Source}
    {k : ErrorKind} (hend : EndsWith retry tail k) {s : Source} {bs : Bytes}
    (hs : Streams intr s bs tail) (n : Nat) (acc : Bytes) :
    (n ≤ bs.length → ∃ s', Source.reader.readExact retry s n acc = (s', .ok (acc ++ bs.take n)) ∧
      Streams intr s' (bs.drop n) tail) ∧
    (bs.length < n → ∃ s', Source.reader.readExact retry s n acc = (s', .error k)) := by
  obtain ⟨c, hc, rfl, rfl⟩ := hs
  induction c generalizing n acc with
  | nil =>
    simp only [Source.bytes, List.length_nil, List.nil_append]
    refine ⟨fun h => ?_, fun h => ?_⟩
    · obtain rfl : n = 0 := by omega
      exact ⟨tail, by rw [Reader.readExact_zero]; simp, [], by simp [Smooth], rfl, by simp [Source.bytes]⟩
    · rw [Reader.readExact_eq, if_neg (by omega)]
      rcases hend with ⟨rfl, rfl⟩ | ⟨t, rfl, rfl⟩ | ⟨t, rfl, hk⟩
      · exact ⟨[], rfl⟩
      · refine ⟨t, ?_⟩
        have : Source.reader.read (.data [] :: t) n = (t, .ok []) := by
          simp [Source.reader, Source.read]
        rw [this]
      · refine ⟨t, ?_⟩
        have : Source.reader.read (.fail k :: t) n = (t, .err k) := rfl
        rw [this]
        simp only
        rw [if_neg (by simpa using hk)]
  | cons e c ih =>
    by_cases hn : n = 0
    · subst hn
      refine ⟨fun _ => ⟨e :: c ++ tail, by rw [Reader.readExact_zero]; simp, e :: c, hc, rfl, by simp⟩,
        fun h => by omega⟩
    rcases hc e (by simp) with rfl | ⟨b, ds, rfl⟩ | ⟨rfl, rfl⟩
    · rw [List.cons_append, readExact_pending, if_neg hn]
      exact ih n acc hc.cons
    · rw [List.cons_append, Reader.readExact_eq, if_neg hn]
      by_cases hle : (b :: ds).length ≤ n
      · have : Source.reader.read (.data (b :: ds) :: (c ++ tail)) n = (c ++ tail, .ok (b :: ds)) := by
          simp only [Source.reader, Source.read]; rw [if_pos hle]
        rw [this]
        simp only
        obtain ⟨h1, h2⟩ := ih (n - (b :: ds).length) (acc ++ b :: ds) hc.cons
        simp only [Source.bytes, List.length_append]
        refine ⟨fun h => ?_, fun h => ?_⟩
        · obtain ⟨s', hs', hst⟩ := h1 (by omega)
          refine ⟨s', ?_, ?_⟩
          · rw [hs', List.append_assoc, List.take_append, List.take_of_length_le hle]
          · rw [List.drop_append, List.drop_of_length_le hle, List.nil_append]
            exact hst
        · exact h2 (by omega)
      · have : Source.reader.read (.data (b :: ds) :: (c ++ tail)) n
            = (.data ((b :: ds).drop n) :: (c ++ tail), .ok ((b :: ds).take n)) := by
          simp only [Source.reader, Source.read]; rw [if_neg hle]
        rw [this]
        obtain ⟨m, rfl⟩ : ∃ m, n = m + 1 := ⟨n - 1, by omega⟩
        simp only [List.take_succ_cons, List.drop_succ_cons]
        have hlen : (b :: ds.take m).length = m + 1 := by
          simp only [List.length_cons, List.length_take] at hle ⊢; omega
        rw [hlen, Nat.sub_self, Reader.readExact_zero]
        simp only [Source.bytes, List.length_append]
        refine ⟨fun h => ⟨_, ?_, .data (ds.drop m) :: c, ?_, rfl, ?_⟩, fun h => by omega⟩
        · rw [List.take_append_of_le_length (by simp at hle ⊢; omega)]; simp
        · intro x hx
          rcases List.mem_cons.1 hx with rfl | hx
          · refine .inr (.inl ?_)
            have : (ds.drop m).length ≠ 0 := by
              simp only [List.length_cons, List.length_drop] at hle ⊢; omega
            cases hd : ds.drop m with
            | nil => simp [hd] at this
            | cons x xs => exact ⟨x, xs, rfl⟩
          · exact hc x (by simp [hx])
        · rw [List.drop_append_of_le_length (by simp at hle ⊢; omega)]
          simp [Source.bytes]
    · rw [List.cons_append, Reader.readExact_eq, if_neg hn]
      have : Source.reader.read (.fail .interrupted :: (c ++ tail)) n
          = (c ++ tail, .err .interrupted) := rfl
      rw [this]
      simp only
      rw [if_pos (by simp [hri])]
      exact ih n acc hc.cons

/-- One `read` on a stream. -/
theorem read_streams {tail : Source} {k : ErrorKind} (hend : EndsWith false tail k) {s : Source}
    {bs : Bytes} (hs : Streams false s bs tail) (n : Nat) (hn : 0 < n) :
    (bs = [] → ∃ s', s.read n = (s', .err k) ∨ (s.read n = (s', .ok []) ∧ k = .unexpectedEof)) ∧
    (bs ≠ [] → ∃ s' d ds, s.read n = (s', .ok (d :: ds)) ∧
      ∃ rest, bs = d :: ds ++ rest ∧ Streams false s' rest tail) := by
  obtain ⟨c, hc, rfl, rfl⟩ := hs
  induction c with
  | nil =>
    refine ⟨fun _ => ?_, fun h => absurd rfl h⟩
    rcases hend with ⟨rfl, rfl⟩ | ⟨t, rfl, rfl⟩ | ⟨t, rfl, hk⟩
    · exact ⟨[], .inr ⟨rfl, rfl⟩⟩
    · exact ⟨t, .inr ⟨by simp [Source.read], rfl⟩⟩
    · exact ⟨t, .inl rfl⟩
  | cons e c ih =>
    rcases hc e (by simp) with rfl | ⟨b, ds, rfl⟩ | ⟨h, -⟩
    · exact ih hc.cons
    · refine ⟨fun h => by simp [Source.bytes] at h, fun _ => ?_⟩
      rw [List.cons_append, Source.read]
      by_cases hle : (b :: ds).length ≤ n
      · rw [if_pos hle]
        exact ⟨_, b, ds, rfl, Source.bytes c, rfl, c, hc.cons, rfl, rfl⟩
      · rw [if_neg hle]
        obtain ⟨m, rfl⟩ : ∃ m, n = m + 1 := ⟨n - 1, by omega⟩
        refine ⟨_, b, ds.take m, rfl, ds.drop m ++ Source.bytes c, ?_, .data (ds.drop m) :: c, ?_, rfl, rfl⟩
        · simp only [Source.bytes]
          simp only [List.cons_append, ← List.append_assoc, List.take_append_drop]
        · intro x hx
          rcases List.mem_cons.1 hx with rfl | hx
          · refine .inr (.inl ?_)
            have : (ds.drop m).length ≠ 0 := by
              simp only [List.length_cons, List.length_drop] at hle ⊢; omega
            cases hd : ds.drop m with
            | nil => simp [hd] at this
            | cons x xs => exact ⟨x, xs, rfl⟩
          · exact hc x (by simp [hx])
    · cases h

/-! ## Session readers -/

/-- A session reader read through an equivalent plain transport. -/
structure Api.Abs (A : Api) where
  abs : A.Session → Source
  read_abs : ∀ s n s' r, 0 < n → A.reader.read s n = (s', r) → (abs s).read n = (abs s', r)
  mk_abs : ∀ l src, abs (A.mkSession l src) = if l = [] then src else .data l :: src

def SyncSession.abs (s : SyncSession) : Source :=
  if s.doneFirst = true ∨ s.leftover = [] then s.inner else .data s.leftover :: s.inner

theorem SyncSession.read_abs (s : SyncSession) (n : Nat) (s' : SyncSession) (r : ReadRes)
    (hn : 0 < n) (h : s.read n = (s', r)) : s.abs.read n = (s'.abs, r) := by
  obtain ⟨l, d, i⟩ := s
  cases d with
  | true =>
    simp only [SyncSession.read, if_true] at h
    simp only [SyncSession.abs, true_or, if_true]
    simp only [Prod.mk.injEq] at h
    obtain ⟨rfl, rfl⟩ := h
    simp
  | false =>
    cases l with
    | nil =>
      simp only [SyncSession.read, List.take_nil] at h
      rw [if_neg (by decide), if_neg (by omega)] at h
      simp only [Prod.mk.injEq] at h
      obtain ⟨rfl, rfl⟩ := h
      simp [SyncSession.abs]
    | cons b l =>
      obtain ⟨m, rfl⟩ : ∃ m, n = m + 1 := ⟨n - 1, by omega⟩
      simp only [SyncSession.read, List.take_succ_cons, List.drop_succ_cons] at h
      rw [if_neg (by decide)] at h
      simp only [Prod.mk.injEq] at h
      obtain ⟨rfl, rfl⟩ := h
      simp only [SyncSession.abs]
      rw [if_neg (by simp), Source.read]
      by_cases hle : (b :: l).length ≤ m + 1
      · simp only [List.length_cons, Nat.add_le_add_iff_right] at hle
        rw [if_pos (by simp; omega), if_pos (by simp [List.drop_eq_nil_iff, hle]),
          List.take_of_length_le hle]
      · simp only [List.length_cons, Nat.add_le_add_iff_right] at hle
        rw [if_neg (by simp; omega), if_neg (by simp [List.drop_eq_nil_iff]; omega)]
        simp

def syncAbs : syncApi.Abs where
  abs := SyncSession.abs
  read_abs := SyncSession.read_abs
  mk_abs l src := by
    show SyncSession.abs ⟨l, false, src⟩ = _
    simp [SyncSession.abs]

def AsyncSession.abs (s : AsyncSession) : Source :=
  if s.leftoverPos < s.leftover.length then .data (s.leftover.drop s.leftoverPos) :: s.inner
  else s.inner

theorem AsyncSession.read_abs (s : AsyncSession) (n : Nat) (s' : AsyncSession) (r : ReadRes)
    (h : s.read n = (s', r)) : s.abs.read n = (s'.abs, r) := by
  obtain ⟨l, p, i⟩ := s
  by_cases hp : p < l.length
  · simp only [AsyncSession.read] at h
    rw [if_pos hp] at h
    simp only [Prod.mk.injEq] at h
    obtain ⟨rfl, rfl⟩ := h
    simp only [AsyncSession.abs, List.length_drop]
    rw [if_pos hp, Source.read]
    by_cases hle : l.length - p ≤ n
    · rw [if_pos (by simpa using hle), if_neg (by omega), List.take_of_length_le]
      simp; omega
    · rw [if_neg (by simpa using hle), if_pos (by omega), Nat.min_eq_right (by omega), List.drop_drop]
  · simp only [AsyncSession.read] at h
    rw [if_neg hp] at h
    simp only [Prod.mk.injEq] at h
    obtain ⟨rfl, rfl⟩ := h
    simp only [AsyncSession.abs]
    rw [if_neg hp, if_neg hp]

def asyncAbs : asyncApi.Abs where
  abs := AsyncSession.abs
  read_abs s n s' r _ h := AsyncSession.read_abs s n s' r h
  mk_abs l src := by
    show AsyncSession.abs ⟨l, 0, src⟩ = _
    simp only [AsyncSession.abs, List.drop_zero]
    cases l <;> simp

theorem readExact_abs {A : Api} (B : A.Abs) (retry : Bool) (s : A.Session) (n : Nat) (acc : Bytes)
    {s' : A.Session} {r : Except ErrorKind Bytes}
    (h : A.reader.readExact retry s n acc = (s', r)) :
    Source.reader.readExact retry (B.abs s) n acc = (B.abs s', r) := by
  fun_induction Reader.readExact A.reader retry s n acc with
  | case1 s acc =>
    simp only [Prod.mk.injEq] at h
    obtain ⟨rfl, rfl⟩ := h
    rw [Reader.readExact_zero]
  | case2 s need acc hz s1 heq =>
    simp only [Prod.mk.injEq] at h
    obtain ⟨rfl, rfl⟩ := h
    rw [Reader.readExact_eq, if_neg hz]
    have := B.read_abs _ _ _ _ (by omega) heq
    rw [show Source.reader.read (B.abs s) need = _ from this]
  | case3 s need acc hz s1 b bs heq ih =>
    rw [Reader.readExact_eq, if_neg hz]
    have := B.read_abs _ _ _ _ (by omega) heq
    rw [show Source.reader.read (B.abs s) need = _ from this]
    exact ih h
  | case4 s need acc hz s1 k heq hr ih =>
    rw [Reader.readExact_eq, if_neg hz]
    have := B.read_abs _ _ _ _ (by omega) heq
    rw [show Source.reader.read (B.abs s) need = _ from this]
    simp only
    rw [if_pos hr]
    exact ih h
  | case5 s need acc hz s1 k heq hr =>
    simp only [Prod.mk.injEq] at h
    obtain ⟨rfl, rfl⟩ := h
    rw [Reader.readExact_eq, if_neg hz]
    have := B.read_abs _ _ _ _ (by omega) heq
    rw [show Source.reader.read (B.abs s) need = _ from this]
    simp only
    rw [if_neg hr]

/-- The session reader delivers exactly `bs` and then does `tail`. -/
def SessStreams {A : Api} (B : A.Abs) (s : A.Session) (bs : Bytes) (tail : Source) : Prop :=
  Streams A.retry (B.abs s) bs tail

theorem sess_readExact {A : Api} (B : A.Abs) {tail : Source} {k : ErrorKind}
    (hend : EndsWith A.retry tail k) {s : A.Session} {bs : Bytes} (hs : SessStreams B s bs tail)
    (n : Nat) :
    (n ≤ bs.length → ∃ s', A.reader.readExact A.retry s n = (s', .ok (bs.take n)) ∧
      SessStreams B s' (bs.drop n) tail) ∧
    (bs.length < n → ∃ s', A.reader.readExact A.retry s n = (s', .error k)) := by
  obtain ⟨h1, h2⟩ := readExact_streams (fun h => h) hend hs n []
  cases hr : A.reader.readExact A.retry s n with
  | mk s' r =>
    have := readExact_abs B A.retry s n [] hr
    constructor
    · intro h
      obtain ⟨s'', e, st⟩ := h1 h
      rw [this] at e
      simp only [Prod.mk.injEq, List.nil_append] at e
      obtain ⟨rfl, rfl⟩ := e
      exact ⟨s', rfl, st⟩
    · intro h
      obtain ⟨s'', e⟩ := h2 h
      rw [this] at e
      simp only [Prod.mk.injEq] at e
      obtain ⟨rfl, rfl⟩ := e
      exact ⟨s', rfl⟩

theorem mkSession_streams {A : Api} (B : A.Abs) {l : Bytes} {src tail : Source} {bs : Bytes}
    (h : Streams false src bs tail) : SessStreams B (A.mkSession l src) (l ++ bs) tail := by
  obtain ⟨c, hc, rfl, rfl⟩ := h
  unfold SessStreams
  rw [B.mk_abs]
  split
  · rename_i hl
    subst hl
    exact ⟨c, hc.mono, rfl, rfl⟩
  · rename_i hl
    refine ⟨.data l :: c, ?_, rfl, rfl⟩
    intro e he
    rcases List.mem_cons.1 he with rfl | he
    · cases l with
      | nil => exact absurd rfl hl
      | cons b l => exact .inr (.inl ⟨b, l, rfl⟩)
    · exact hc.mono e he

end Bip324
