/-
Tags of non-posted requests (rc.py:60-68, 244-262; function.py:50-56, 487-505) and the life of non-posted operations
(rc.py:208-242, 267-302; function.py:448-485, 510-545).
-/
import Verif.Model.Region
namespace Pcie

/-- `tag_active` (256 flags) and `current_tag`. -/
structure Tags where
  active : List Bool := List.replicate 256 false
  current : Nat := 0
deriving DecidableEq, Repr

namespace Tags

/-- rc.py:245 and function.py:488: the number of tags in use. `ext` is `extended_tag_field_enable` (the root complex has
no such setting: `ext = true`). -/
def limit (ext : Bool) (tag_count : Nat) : Nat := min (if ext then 256 else 32) tag_count

/-- rc.py:249-254: the scan, `k` tags still to look at. -/
def scan (active : List Bool) (tag_count : Nat) : Nat → Nat → Option Nat
  | 0, _ => none
  | k + 1, tag =>
    let tag := (tag + 1) % tag_count
    if active.getD tag false then scan active tag_count k tag else some tag

/-- rc.py:244-257 `alloc_tag`: one attempt; `none` means that the caller waits for a release and tries again. -/
def alloc (p : Tags) (tag_count : Nat) : Option (Nat × Tags) :=
  match scan p.active tag_count tag_count p.current with
  | some tag => some (tag, { active := p.active.set tag true, current := tag })
  | none => none

/-- rc.py:259-262 `release_tag`. -/
def release (p : Tags) (tag : Nat) : Py Tags :=
  if p.active.getD tag false then .ok { p with active := p.active.set tag false } else .error "AssertionError"

end Tags

/-- Any number of users of one pool: the pool and the tags currently held. -/
structure TagUsers where
  pool : Tags := {}
  held : List Nat := []

/-- One user allocates (with the tag limit of that moment), or one holder releases its tag. -/
inductive TagOp where
  | alloc (ext : Bool) (tag_count : Nat)
  | release (i : Nat)

/-- One step; an allocation that finds no tag leaves the user waiting. -/
def TagUsers.step (s : TagUsers) : TagOp → Py TagUsers
  | .alloc ext tag_count =>
    match s.pool.alloc (Tags.limit ext tag_count) with
    | some (tag, pool) => .ok { pool := pool, held := s.held ++ [tag] }
    | none => .ok s
  | .release i =>
    match s.held[i]? with
    | none => .ok s
    | some tag => match s.pool.release tag with
      | .ok pool => .ok { pool := pool, held := s.held.eraseIdx i }
      | .error e => .error e

/-- A sequence of steps. -/
def TagUsers.run (s : TagUsers) : List TagOp → Py TagUsers
  | [] => .ok s
  | op :: ops => match s.step op with
    | .ok s => s.run ops
    | .error e => .error e

/-! ### Operations -/

/-- A non-posted operation in progress or finished: its tag, its request, the completions received so far, each with the
number of the operation it was generated for, and whether it has returned. `answers` records what the completer sends
for it (a history variable, not part of the code). -/
structure Op where
  tag : Nat
  req : Tlp
  answers : List Tlp := []
  got : List (Nat × Tlp) := []
  finished : Bool := false

/-- A requester with its operations (numbered in the order of their starting), the completion queues by tag
(`rx_cpl_queues`), and the completions under way to it: for each operation those not yet arrived, in order. -/
structure Ops where
  pool : Tags := {}
  ops : List Op := []
  queue : Nat → List (Nat × Tlp) := fun _ => []
  net : List (List Tlp) := []

/-- Whether a completion ends the operation (rc.py:281-298; function.py:524-541). -/
def Op.ends (req cpl : Tlp) : Bool :=
  if cpl.status ≠ CplStatus.SC then true
  else if Region.isMemRead req then
    cpl.byte_count + (cpl.lower_address &&& 3) ≤ cpl.length * 4 ∨ cpl.fmtType = some .CPL ∨ cpl.fmtType = some .CPL_LOCKED
  else true

/-- What can happen at a requester. -/
inductive OpAct where
  /-- `perform_nonposted_operation` starts and gets a tag; `answers` is what the completer will send for it. -/
  | start (req : Tlp) (answers : List Tlp) (tag_count : Nat)
  /-- the next completion for operation `i` arrives (`handle_tlp`: it goes to the queue of its tag) -/
  | arrive (i : Nat)
  /-- operation `i` takes the next completion of its queue (`recv_cpl`) -/
  | recv (i : Nat)
  /-- operation `i` finds its queue empty when its timer expires (`recv_cpl` returns None) -/
  | timeout (i : Nat)

/-- One step (rc.py:208-211, 222-242, 267-302; function.py:448-452, 465-485, 510-545). Operations that are not in the
required situation are left alone. -/
def Ops.step (s : Ops) : OpAct → Py Ops
  | .start req answers tag_count =>
    match s.pool.alloc tag_count with
    | some (tag, pool) => .ok { s with pool := pool, ops := s.ops ++ [{ tag := tag, req := req, answers := answers }], net := s.net ++ [answers] }
    | none => .ok s
  | .arrive i =>
    match s.ops[i]?, s.net[i]? with
    | some o, some (c :: rest) =>
      .ok { s with queue := fun t => if t = o.tag then s.queue t ++ [(i, c)] else s.queue t, net := s.net.set i rest }
    | _, _ => .ok s
  | .recv i =>
    match s.ops[i]? with
    | some o =>
      if o.finished then .ok s else
      match s.queue o.tag with
      | [] => .ok s
      | c :: rest =>
        let queue := fun t => if t = o.tag then rest else s.queue t
        let o' := { o with got := o.got ++ [c] }
        if Op.ends o.req c.2 then
          match s.pool.release o.tag with
          | .ok pool => .ok { s with pool := pool, queue := queue, ops := s.ops.set i { o' with finished := true } }
          | .error e => .error e
        else .ok { s with queue := queue, ops := s.ops.set i o' }
    | none => .ok s
  | .timeout i =>
    match s.ops[i]? with
    | some o =>
      if o.finished then .ok s else
      match s.queue o.tag with
      | [] => match s.pool.release o.tag with
        | .ok pool => .ok { s with pool := pool, ops := s.ops.set i { o with finished := true } }
        | .error e => .error e
      | _ => .ok s
    | none => .ok s

/-- A history. -/
def Ops.run (s : Ops) : List OpAct → Py Ops
  | [] => .ok s
  | a :: as => match s.step a with
    | .ok s => s.run as
    | .error e => .error e

end Pcie
