import Verif.Model.Halves
import Verif.Spec.Bip324

/-!
# Two connected parties over channels of limited capacity

Two parties hold the two ends of a connection after their handshakes.  What one end writes and the other has not read
yet is in a channel that holds `cap` bytes at most.  A call that writes takes as many bytes as the system likes, at least
one, unless the channel is full: then it blocks.  A call that reads gets as many bytes as the system likes, at least one,
unless the channel is empty: then it blocks.

Each party has a list of payloads to write and a number of reads to make, and an order in which its program makes the
calls: on two threads after `into_split`, or on one thread in a fixed order.
-/

namespace Bip324

/-- The end of a connection: first what was written here and not yet read there, then what was written there and not yet
read here.  `k`: how many bytes the system is willing to move, less one. -/
def endConn (cap k : Nat) : Conn (Bytes × Bytes) where
  read s n :=
    if n = 0 then some (s, .ok [])
    else if s.2 = [] then none
    else some ((s.1, s.2.drop (min n (k + 1))), .ok (s.2.take (min n (k + 1))))
  write s buf :=
    if buf = [] then some (s, .ok 0)
    else if cap ≤ s.1.length then none
    else
      let m := min (k + 1) (min (cap - s.1.length) buf.length)
      some ((s.1 ++ buf.take m, s.2), .ok m)
  flush s := some (s, .ok ())

/-- The two kinds of call. -/
inductive IoCall where
  | write
  | read
deriving Repr, DecidableEq

/-- When a program makes its next call of a kind: given which calls are in progress and how many of each kind have
returned. -/
def Order : Type := (writing reading : Bool) → (written read : Nat) → IoCall → Bool

/-- Two threads: one that writes and one that reads. -/
def Order.split : Order := fun _ _ _ _ _ => true

/-- One thread that makes these calls one after the other. -/
def Order.sequence (calls : List IoCall) : Order := fun writing reading written read c =>
  !writing && !reading && calls[written + read]? == some c

/-- A party: its halves, the payloads that it has not begun to write, and the reads that it has not begun. -/
structure LinkEnd where
  halves : Halves (Bytes × Bytes) SyncHalf (Outcome ProtocolError Payload)
  todo : List Payload
  left : Nat

/-- The program may make its next call. -/
def LinkEnd.may (o : Order) (e : LinkEnd) (c : IoCall) : Bool :=
  o e.halves.wr.isSome (e.halves.half.pc != .idle) e.halves.wrote.length e.halves.reads.length c

/-- One step of one thread of a party: the next call begins, or the call in progress goes on. -/
def LinkEnd.step (o : Order) (cap k : Nat) (P : Prims) (prof : Profile) (e : LinkEnd) : IoCall → LinkEnd
  | .write =>
    match e.halves.wr with
    | some _ => { e with halves := e.halves.step (syncHalf (endConn cap k) P prof) .sync (endConn cap k) P prof .writing }
    | none =>
      match e.todo with
      | [] => e
      | p :: ps =>
        if e.may o .write then
          { e with halves := e.halves.step (syncHalf (endConn cap k) P prof) .sync (endConn cap k) P prof (.write p), todo := ps }
        else e
  | .read =>
    if e.halves.half.pc = .idle then
      match e.left with
      | 0 => e
      | n + 1 =>
        if e.may o .read then
          { e with halves := e.halves.step (syncHalf (endConn cap k) P prof) .sync (endConn cap k) P prof .read, left := n }
        else e
    else { e with halves := e.halves.step (syncHalf (endConn cap k) P prof) .sync (endConn cap k) P prof .reading }

/-- What the other side did to the channels. -/
def LinkEnd.sees (e : LinkEnd) (s : Bytes × Bytes) : LinkEnd :=
  { e with halves := { e.halves with run := { e.halves.run with net := s } } }

/-- The two parties. -/
structure Link where
  a : LinkEnd
  b : LinkEnd

/-- How the parties are made: the orders of their programs and the capacities of the channels from them. -/
structure LinkSetup where
  orderA : Order
  orderB : Order
  capA : Nat
  capB : Nat

/-- Who makes a step: which party, which of its threads, and how many bytes the system would move. -/
structure LinkLabel where
  ofA : Bool
  call : IoCall
  k : Nat

/-- One step of the system. -/
def Link.step (S : LinkSetup) (P : Prims) (prof : Profile) (s : Link) (l : LinkLabel) : Link :=
  if l.ofA then
    let a := s.a.step S.orderA S.capA l.k P prof l.call
    ⟨a, s.b.sees a.halves.run.net.swap⟩
  else
    let b := s.b.step S.orderB S.capB l.k P prof l.call
    ⟨s.a.sees b.halves.run.net.swap, b⟩

/-- A schedule. -/
def Link.run (S : LinkSetup) (P : Prims) (prof : Profile) (s : Link) (ls : List LinkLabel) : Link :=
  ls.foldl (Link.step S P prof) s

/-- No thread of either party can do anything. -/
def Link.Stuck (S : LinkSetup) (P : Prims) (prof : Profile) (s : Link) : Prop :=
  ∀ l, Link.step S P prof s l = s

/-- Every step of the schedule does something. -/
def Link.Busy (S : LinkSetup) (P : Prims) (prof : Profile) : Link → List LinkLabel → Prop
  | _, [] => True
  | s, l :: ls => Link.step S P prof s l ≠ s ∧ Link.Busy S P prof (Link.step S P prof s l) ls

/-- The packets of these payloads, from number `n` on. -/
def payloadStream (P : Prims) (kL kP : Bytes) : Nat → List Payload → Bytes
  | _, [] => []
  | n, p :: ps =>
    Spec.packet P kL kP n (p.packetType.getD .genuine == .decoy) [] (p.contents.getD []) ++ payloadStream P kL kP (n + 1) ps

/-- What `read` returns for a payload: the same type and the same contents. -/
def Payload.received (p : Payload) : Payload :=
  .decrypted ((p.packetType.getD .genuine).toByte :: p.contents.getD [])

/-- The bytes that a session reader has got and not used. -/
def SyncHalf.held (h : SyncHalf) : Bytes := if h.sess.2 then [] else h.sess.1

/-- The bytes of the packets of these payloads. -/
def wireSize (ps : List Payload) : Nat := (ps.map fun p => (p.contents.getD []).length + 20).sum

/-- This order makes `w` writes and `r` reads. -/
def Order.Fits (o : Order) (w r : Nat) : Prop :=
  o = .split ∨ ∃ calls : List IoCall, o = .sequence calls ∧ calls.count .write = w ∧ calls.count .read = r

/-- The other call. -/
def IoCall.dual : IoCall → IoCall
  | .write => .read
  | .read => .write

/-- First write everything, then read everything. -/
def Order.exchange (w r : Nat) : Order := .sequence (List.replicate w .write ++ List.replicate r .read)

/-- Payloads that the peer's `read` takes. -/
def Payload.Readable (p : Payload) : Prop :=
  ∃ t c, p.packetType = some t ∧ p.contents = some c ∧ c.length ≤ 4000013

end Bip324
