import Verif.Model.Base

/-!
# Byte transports

`std::io::{Read, Write}` and `tokio::io::{AsyncRead, AsyncWrite}` are traits implemented by the
caller's transport, so their behaviour is an input of the model: a *script* of what the successive
calls answer.  Every finite execution of the code against any transport is the execution against
the script of the answers that transport gave.
-/

namespace Bip324

/-- `std::io::ErrorKind` (the kinds the code distinguishes, and the rest). io.rs:186-202. -/
inductive ErrorKind where
  | connectionReset
  | connectionAborted
  | unexpectedEof
  | interrupted
  | wouldBlock
  | timedOut
  | writeZero
  | brokenPipe
  | other (code : Nat)
deriving Repr, DecidableEq

/-- What a transport does when asked for bytes. Environment of io.rs:280-293 and futures.rs:151-160 (`R`). -/
inductive REv where
  /-- These bytes are available; a shorter request takes a prefix and leaves the rest.  `data []`
  is a read that returns `Ok(0)` although the stream goes on later. -/
  | data (bytes : Bytes)
  /-- The call fails. -/
  | fail (kind : ErrorKind)
  /-- `Poll::Pending` (async); a blocking read simply waits. -/
  | pending
deriving Repr, DecidableEq

/-- The script of a reading transport; at its end every read answers `Ok(0)` (end of stream).
Environment of io.rs:280-293 and futures.rs:151-160 (`R`). -/
abbrev Source := List REv

/-- Result of one `read` call. io.rs:82, 377; futures.rs:211, 409, 428. -/
inductive ReadRes where
  | ok (bytes : Bytes)
  | err (kind : ErrorKind)
deriving Repr, DecidableEq

/-- Result of one `poll_read` call. futures.rs:97-121. -/
inductive PollRead where
  | ready (r : ReadRes)
  | pending
deriving Repr, DecidableEq

/-- One `poll_read` with a buffer of `n` bytes. Environment; called at futures.rs:120. -/
def Source.pollRead : Source → Nat → Source × PollRead
  | [], _ => ([], .ready (.ok []))
  | .pending :: s, _ => (s, .pending)
  | .fail k :: s, _ => (s, .ready (.err k))
  | .data bs :: s, n =>
    if bs.length ≤ n then (s, .ready (.ok bs)) else (.data (bs.drop n) :: s, .ready (.ok (bs.take n)))

/-- One blocking `read` (or one awaited `AsyncReadExt::read`) with a buffer of `n` bytes.
Environment; called at io.rs:83, 377 and futures.rs:211. -/
def Source.read : Source → Nat → Source × ReadRes
  | [], _ => ([], .ok [])
  | .pending :: s, n => Source.read s n
  | .fail k :: s, _ => (s, .err k)
  | .data bs :: s, n =>
    if bs.length ≤ n then (s, .ok bs) else (.data (bs.drop n) :: s, .ok (bs.take n))

/-- Termination measure of reading. No code in /repo. -/
def Source.size : Source → Nat
  | [] => 0
  | .data bs :: s => bs.length + 1 + Source.size s
  | .fail _ :: s => 1 + Source.size s
  | .pending :: s => 1 + Source.size s

/-- A reader: a `read` function and the fact that non-empty answers use the reader up.
`R: Read` of io.rs:81, 514 and `R: AsyncRead` of futures.rs:96, 387. -/
structure Reader (σ : Type) where
  read : σ → Nat → σ × ReadRes
  size : σ → Nat
  dec : ∀ s n s' r, 0 < n → read s n = (s', r) → size s' < size s ∨ (size s' ≤ size s ∧ r = .ok [])

theorem Source.read_dec (s : Source) (n : Nat) (s' : Source) (r : ReadRes) (hn : 0 < n)
    (h : s.read n = (s', r)) : s'.size < s.size ∨ (s'.size ≤ s.size ∧ r = .ok []) := by
  induction s with
  | nil =>
    simp only [Source.read, Prod.mk.injEq] at h
    obtain ⟨rfl, rfl⟩ := h
    exact .inr ⟨Nat.le_refl _, rfl⟩
  | cons e s ih =>
    cases e with
    | pending =>
      simp only [Source.read] at h
      have := ih h
      simp only [Source.size]
      omega
    | fail k =>
      simp only [Source.read, Prod.mk.injEq] at h
      obtain ⟨rfl, rfl⟩ := h
      simp only [Source.size]; omega
    | data bs =>
      simp only [Source.read] at h
      split at h
      · simp only [Prod.mk.injEq] at h
        obtain ⟨rfl, rfl⟩ := h
        simp only [Source.size]; omega
      · simp only [Prod.mk.injEq] at h
        obtain ⟨rfl, rfl⟩ := h
        simp only [Source.size, List.length_drop]; omega

/-- The caller's transport as a reader. Environment of io.rs:280-293 and futures.rs:151-160. -/
def Source.reader : Reader Source := ⟨Source.read, Source.size, Source.read_dec⟩

/-- `read_exact`.  `retry = true` is `std::io::Read::read_exact` (default implementation: repeats on
`Interrupted`), `retry = false` is tokio's `AsyncReadExt::read_exact`.  Both answer
`UnexpectedEof` on `Ok(0)`.  `acc` is the part of the buffer filled so far.
std and tokio code, called at io.rs:349, 361, 395, 403, 528, 533; futures.rs:183, 195, 229, 237. -/
def Reader.readExact {σ : Type} (R : Reader σ) (retry : Bool) (s : σ) (need : Nat)
    (acc : Bytes := []) : σ × Except ErrorKind Bytes :=
  if _hz : need = 0 then (s, .ok acc)
  else
    match _h : R.read s need with
    | (s', .ok []) => (s', .error .unexpectedEof)
    | (s', .ok (b :: bs)) => R.readExact retry s' (need - (b :: bs).length) (acc ++ (b :: bs))
    | (s', .err k) =>
      if retry && k == .interrupted then R.readExact retry s' need acc else (s', .error k)
termination_by R.size s
decreasing_by
  all_goals
    have := R.dec _ _ _ _ (by omega) _h
    simpa using this

theorem Reader.readExact_size {σ : Type} (R : Reader σ) (retry : Bool) (s : σ) (need : Nat)
    (acc : Bytes) (s' : σ) (r : Except ErrorKind Bytes)
    (h : R.readExact retry s need acc = (s', r)) :
    R.size s' ≤ R.size s ∧ (0 < need → (∃ b, r = .ok b) → R.size s' < R.size s) := by
  fun_induction Reader.readExact R retry s need acc with
  | case1 s acc =>
    simp only [Prod.mk.injEq] at h
    obtain ⟨rfl, rfl⟩ := h
    simp
  | case2 s need acc hz s1 heq =>
    simp only [Prod.mk.injEq] at h
    obtain ⟨rfl, rfl⟩ := h
    have := R.dec _ _ _ _ (by omega) heq
    refine ⟨by omega, ?_⟩
    rintro - ⟨b, hb⟩
    cases hb
  | case3 s need acc hz s1 b bs heq ih =>
    have h1 := R.dec _ _ _ _ (by omega) heq
    have h2 := ih h
    simp only [reduceCtorEq, and_false, or_false, ReadRes.ok.injEq] at h1
    exact ⟨by omega, fun _ _ => by omega⟩
  | case4 s need acc hz s1 k heq hr ih =>
    have h1 := R.dec _ _ _ _ (by omega) heq
    have h2 := ih h
    simp only [reduceCtorEq, and_false, or_false] at h1
    exact ⟨by omega, fun _ _ => by omega⟩
  | case5 s need acc hz s1 k heq hr =>
    simp only [Prod.mk.injEq] at h
    obtain ⟨rfl, rfl⟩ := h
    have h1 := R.dec _ _ _ _ (by omega) heq
    simp only [reduceCtorEq, and_false, or_false] at h1
    refine ⟨by omega, ?_⟩
    rintro - ⟨b, hb⟩
    cases hb

/-- What a transport does when given bytes to write. Environment of io.rs:280-293 and futures.rs:151-160 (`W`). -/
inductive WEv where
  /-- Takes up to `n` bytes (`accept 0` is `Ok(0)`). -/
  | accept (n : Nat)
  /-- The call fails, nothing is taken. -/
  | fail (kind : ErrorKind)
  /-- `Poll::Pending` (async); a blocking write waits. -/
  | pending
deriving Repr, DecidableEq

/-- A writing transport: what successive writes do (at the end everything is accepted), what
successive flushes answer (at the end `Ok`), and the bytes taken so far.
Environment of io.rs:280-293 and futures.rs:151-160 (`W`). -/
structure Sink where
  script : List WEv
  flushes : List (Option ErrorKind)
  out : Bytes
deriving Repr, DecidableEq

/-- The loop of `write_all` over the script: rest of the script, bytes taken, result.
std and tokio code, called at io.rs:344, 356, 570; futures.rs:178, 190, 488. -/
def writeAllGo (retry : Bool) : List WEv → Bytes → List WEv × Bytes × Except ErrorKind Unit
  | s, [] => (s, [], .ok ())
  | [], buf => ([], buf, .ok ())
  | .pending :: s, buf => writeAllGo retry s buf
  | .fail k :: s, buf =>
    if retry && k == .interrupted then writeAllGo retry s buf else (s, [], .error k)
  | .accept 0 :: s, _ => (s, [], .error .writeZero)
  | .accept (n + 1) :: s, buf =>
    match writeAllGo retry s (buf.drop (n + 1)) with
    | (s', taken, r) => (s', buf.take (n + 1) ++ taken, r)

/-- `write_all`: `retry = true` is `std::io::Write::write_all` (repeats on `Interrupted`),
`retry = false` is tokio's.  Both answer `WriteZero` on `Ok(0)`.
Called at io.rs:344, 356, 570; futures.rs:178, 190, 488. -/
def Sink.writeAll (retry : Bool) (w : Sink) (buf : Bytes) : Sink × Except ErrorKind Unit :=
  match writeAllGo retry w.script buf with
  | (s', taken, r) => ({ w with script := s', out := w.out ++ taken }, r)

/-- `flush`. io.rs:345, 357, 571; futures.rs:179, 191, 489. -/
def Sink.flush (w : Sink) : Sink × Except ErrorKind Unit :=
  match w.flushes with
  | [] => (w, .ok ())
  | none :: fs => ({ w with flushes := fs }, .ok ())
  | some k :: fs => ({ w with flushes := fs }, .error k)

end Bip324
