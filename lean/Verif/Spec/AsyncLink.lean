import Verif.Spec.ShapedLink
import Verif.Model.TrafficFutures

/-!
# Two asynchronous shaped parties over channels of limited capacity

As Spec/ShapedLink.lean, for the shaped protocol of `traffic/src/futures.rs`: each party has an application that calls
`write`, polls it, drops its future or drops the writer, a task that writes, and a reader that is polled.
-/

namespace Bip324

/-- As `endConn`; a poll that reads is pending if nothing is there. -/
def pollEnd (cap k : Nat) : PollConn (Bytes × Bytes) where
  toConn := endConn cap k
  pollRead s n :=
    if n = 0 then (s, .ready (.ok []))
    else if s.2 = [] then (s, .pending)
    else ((s.1, s.2.drop (min n (k + 1))), .ready (.ok (s.2.take (min n (k + 1)))))

/-- The two parties. -/
structure AsyncLink (RA RB : Rng) where
  a : AsyncShapedN (Bytes × Bytes) RA
  b : AsyncShapedN (Bytes × Bytes) RB

/-- What a party does: the application makes or polls or drops a call, or the task goes on (`AsyncLabel`), or the poll of
`read` goes on. -/
inductive AsyncAct where
  | sys (l : AsyncLabel)
  | reading
deriving Repr, DecidableEq

def AsyncAct.label : AsyncAct → ShapedLabel (Bytes × Bytes) AsyncLabel
  | .sys l => .sys l
  | .reading => .reading

/-- Who does what, and how many bytes the system would move (less one). -/
structure AsyncMove where
  ofA : Bool
  act : AsyncAct
  k : Nat
deriving Repr, DecidableEq

variable {RA RB : Rng}

/-- One step; `capA`: the capacity of the channel from `a` to `b`. -/
def AsyncLink.step (capA capB : Nat) (P : Prims) (prof : Profile) (s : AsyncLink RA RB) (m : AsyncMove) : AsyncLink RA RB :=
  if m.ofA then
    let a := s.a.step (pollEnd capA m.k) P prof m.act.label
    ⟨a, s.b.step (pollEnd capB m.k) P prof (.peer a.run.net.swap)⟩
  else
    let b := s.b.step (pollEnd capB m.k) P prof m.act.label
    ⟨s.a.step (pollEnd capA m.k) P prof (.peer b.run.net.swap), b⟩

/-- A schedule. -/
def AsyncLink.run (capA capB : Nat) (P : Prims) (prof : Profile) (s : AsyncLink RA RB) (ms : List AsyncMove) : AsyncLink RA RB :=
  ms.foldl (AsyncLink.step capA capB P prof) s

/-- A schedule of two programs that await their first `write` before they read, and do not drop it. -/
def AsyncLink.runWriteFirst (capA capB : Nat) (P : Prims) (prof : Profile) (s : AsyncLink RA RB) (ms : List AsyncMove) :
    AsyncLink RA RB :=
  ms.foldl (fun s m =>
    if (if m.ofA then s.a.sys.returned else s.b.sys.returned) = [] ∧
        (m.act = .sys .read ∨ m.act = .reading ∨ m.act = .sys .cancel) then s
    else s.step capA capB P prof m) s

/-- The results of the polls of `read` that were ready. -/
def readyReads (rs : List PollResult) : List (Outcome ProtocolError Payload) :=
  rs.filterMap fun r => match r with | .ready x => some x | .pending => none

end Bip324
