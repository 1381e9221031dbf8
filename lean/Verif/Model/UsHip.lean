import Verif.Model.UsTlp
/-
Model of the requester side of the Xilinx hard IP models (xilinx/us/us_model.py, xilinx/us/usp_model.py): tags, credits and the queue of non-posted requests, and the
receive buffer for completions. The line numbers are those of us_model.py; usp_model.py has the same code with other constants (usp_model.py:894-904 `get_free_tag`,
906-910 `get_available_tag_count`, 947-1025 completions, 1165-1223 `_run_rq_logic`, 1225-1261 `_run_rq_np_queue_logic`, 1314-1320 `_run_rc_logic`).
-/
namespace Pcie

/-- us_model.py:338-354, usp_model.py:391-407: the constants; `tagMax` is the bound of the assertion in us_model.py:1048 and usp_model.py:1188, `client` is
`enable_client_tag`. -/
structure HipParams where
  tagCount : Nat := 64
  tagMax : Nat := 64
  npLimit : Nat := 16
  creditLimit : Nat := 1024
  cplhLimit : Nat := 64
  cpldLimit : Nat := 1024
  client : Bool := false
deriving DecidableEq, Repr

/-- us_model.py:338-354: UltraScale. -/
def HipParams.us : HipParams := {}
/-- usp_model.py:391-407: UltraScale+. -/
def HipParams.usp : HipParams := { tagCount := 256, tagMax := 256, creditLimit := 2048, cplhLimit := 256, cpldLimit := 2048 }

/-- Where `_run_rq_logic` is: at its start, or holding a request because the queue of non-posted requests is full, before or after `rq_np_queue_dequeue` is set. -/
inductive RqSt where
  | idle
  | blocked (t : Tlp)
  | ready (t : Tlp)
deriving DecidableEq, Repr

/-- Where `_run_rq_np_queue_logic` is: waiting for a request, holding one and waiting for credits (before or after `cpld_credit_released` is set), or holding one and
waiting for `tag_release`. -/
inductive NpSt where
  | idle
  | waitCredit (t : Tlp)
  | ready (t : Tlp)
  | waitTag (t : Tlp)
deriving DecidableEq, Repr

/-- What can be seen from outside (a history, not part of the code): a request accepted from the user, a request sent to the link, a request dropped because bus mastering
is disabled, a completion received for a function of the device, a completion dropped for lack of space, a completion handed to the user. -/
inductive HipObs where
  | accepted (t : Tlp)
  | sent (t : Tlp)
  | refused (t : Tlp)
  | cpl (c : Tlp)
  | lost (c : UsTlp)
  | delivered (c : UsTlp)
deriving DecidableEq, Repr

/-- us_model.py:328-359: the state. `funcs` are the functions with their IDs and `bus_master_enable`, `ext` is `extended_tag_field_enable` of function 0. `rcSend` is the
completion that `_run_rc_logic` has taken from its queue and not yet accounted for. -/
structure Hip where
  ext : Bool := false
  busNum : Nat := 0
  funcs : List (PcieId × Bool) := [(⟨0, 0, 0⟩, true)]
  active : List (Option Tlp) := List.replicate 256 none
  current : Nat := 0
  avail : Nat := 32
  credit : Nat := 0
  npq : List Tlp := []
  rq : RqSt := .idle
  np : NpSt := .idle
  rqTag : List Nat := []
  cplh : Nat := 0
  cpld : Nat := 0
  rcq : List UsTlp := []
  rcSend : Option UsTlp := none
  localError : Bool := false
  hist : List HipObs := []
deriving DecidableEq, Repr

namespace Hip

/-- us_model.py:751: the number of tags in use. -/
def tagLimit (p : HipParams) (ext : Bool) : Nat := min (if ext then 256 else 32) p.tagCount

/-- us_model.py:754-758: the scan for a free tag, `k` tags still to look at. -/
def scan (active : List (Option Tlp)) (count : Nat) : Nat → Nat → Option Nat
  | 0, _ => none
  | k + 1, tag =>
    let tag := (tag + 1) % count
    if active[tag]? = some none then some tag else scan active count k tag

/-- us_model.py:750-760 `get_free_tag`. -/
def freeTag (p : HipParams) (s : Hip) : Option Nat := scan s.active (tagLimit p s.ext) (tagLimit p s.ext) s.current

/-- us_model.py:762-766 `get_available_tag_count`. -/
def availCount (ext : Bool) (active : List (Option Tlp)) : Nat :=
  if ext then active.countP Option.isNone else (active.take 32).countP Option.isNone

/-- us_model.py:1042, 1075, 1106: `self.functions[tlp.requester_id.function].bus_master_enable`; `none` is the `IndexError`. -/
def master (s : Hip) (t : Tlp) : Option Bool := (s.funcs[t.requester_id.function]?).map (·.2)

/-- us_model.py:1051-1059 and 1113-1118: the tag, `active_request`, the counts, and the sending of a non-posted request. Indexing `active_request` with `None` is a
`TypeError`. Simplification: sending is the handing over of the packet to `send`; the sequence numbers reported to the user are not modelled. -/
def issue (p : HipParams) (s : Hip) (t : Tlp) : Py Hip :=
  match if p.client then some t.tag else freeTag p s with
  | none => .error "TypeError"
  | some tag =>
    match s.active[tag]? with
    | none => .error "IndexError"
    | some (some _) => .error "AssertionError"
    | some none =>
      let t := { t with tag := tag }
      let active := s.active.set tag (some t)
      .ok { s with
        current := if p.client then s.current else tag
        rqTag := if p.client then s.rqTag else s.rqTag ++ [tag]
        active := active
        avail := availCount s.ext active
        credit := s.credit + t.dataCredits
        hist := s.hist ++ [.sent t.copy] }

/-- us_model.py:1068-1072: waiting for space in the queue. -/
def enqueue (p : HipParams) (s : Hip) (t : Tlp) : Hip :=
  if p.npLimit ≤ s.npq.length then { s with rq := .blocked t } else { s with rq := .idle, npq := s.npq ++ [t] }

/-- us_model.py:1038-1072: a non-posted request in `_run_rq_logic`. -/
def rqNonposted (p : HipParams) (s : Hip) (t : Tlp) : Py Hip :=
  if s.npq = [] ∧ s.credit + t.dataCredits ≤ p.creditLimit ∧ (p.client = true ∨ 0 < s.avail) then
    match s.master t with
    | none => .error "IndexError"
    | some false => .ok { s with hist := s.hist ++ [.refused t] }
    | some true => if t.tag < (if s.ext then p.tagMax else 32) then issue p s t else .error "AssertionError"
  else .ok (enqueue p s t)

/-- us_model.py:1074-1082: a posted request in `_run_rq_logic`. -/
def rqPosted (s : Hip) (t : Tlp) : Py Hip :=
  match s.master t with
  | none => .error "IndexError"
  | some false => .ok { s with hist := s.hist ++ [.refused t] }
  | some true => .ok { s with hist := s.hist ++ [.sent t.copy] }

/-- us_model.py:1033-1034: the requester ID. -/
def requester (s : Hip) (u : UsTlp) : Tlp :=
  if u.requesterIdEnable then u.tlp else { u.tlp with requester_id := { u.tlp.requester_id with bus := s.busNum } }

/-- us_model.py:1025-1082 `_run_rq_logic`: one unpacked request. -/
def rqRecv (p : HipParams) (s : Hip) (u : UsTlp) : Py Hip :=
  if u.discontinue then .ok s
  else
    let t := s.requester u
    let s := { s with hist := s.hist ++ [.accepted t] }
    match t.fcType with
    | none => .error "KeyError"
    | some .NP => rqNonposted p s t
    | some _ => rqPosted s t

/-- us_model.py:1089-1120: the loop of `_run_rq_np_queue_logic` for the request `t`, until the next wait. -/
def npTry (p : HipParams) (s : Hip) (t : Tlp) : Py Hip :=
  if p.creditLimit < s.credit + t.dataCredits then .ok { s with np := .waitCredit t }
  else if p.client = false ∧ s.avail = 0 then .ok { s with np := .waitTag t }
  else
    let s := { s with np := .idle }
    match s.master t with
    | none => .error "IndexError"
    | some false => .ok { s with hist := s.hist ++ [.refused t] }
    | some true => issue p s t

/-- us_model.py:825-861: what a completion means for the request with its tag, if there is one: the completion as the user sees it, and whether the tag is freed. Python's
`&` on a possibly negative number is the remainder. -/
def judge (req : Option Tlp) (u : UsTlp) : UsTlp × Bool :=
  let c := u.tlp
  match req with
  | none => ({ u with errorCode := 6 }, false)
  | some r =>
    if c.requester_id ≠ r.requester_id ∨ c.attr ≠ r.attr ∨ c.tc ≠ r.tc then ({ u with errorCode := 4 }, false)
    else if c.status ≠ CplStatus.SC then ({ u with errorCode := 2, requestCompleted := true }, true)
    else if r.fmtType = some .MEM_READ ∨ r.fmtType = some .MEM_READ_64 then
      let low : Int := r.address + (r.length * 4 - r.lastBeOffset : Int) - c.byte_count
      let u := if (c.lower_address : Int) ≠ low % 128 then { u with errorCode := 5 } else { u with tlp := { c with lower_address := (low % 4096).toNat } }
      let fin := u.tlp.byte_count + (u.tlp.lower_address &&& 3) ≤ u.tlp.length * 4
      let u := if fin then { u with requestCompleted := true } else u
      if c.fmtType = some .CPL ∨ c.fmtType = some .CPL_LOCKED then ({ u with errorCode := 3, requestCompleted := true }, true)
      else (u, fin)
    else ({ u with requestCompleted := true }, true)

/-- us_model.py:867-877: the buffer for completions. -/
def buffer (p : HipParams) (s : Hip) (u : UsTlp) : Hip :=
  if s.cplh + 1 ≤ p.cplhLimit ∧ s.cpld + u.tlp.dataCredits + 1 ≤ p.cpldLimit then
    { s with cplh := s.cplh + 1, cpld := s.cpld + (u.tlp.dataCredits + 1), rcq := s.rcq ++ [u] }
  else { s with localError := true, hist := s.hist ++ [.lost u] }

/-- us_model.py:864: `cpld_credit_released.set()`. -/
def release : NpSt → NpSt
  | .waitCredit t => .ready t
  | n => n

/-- us_model.py:862-879: the credits, the buffer and the number of tags after a completion. -/
def account (p : HipParams) (s : Hip) (u : UsTlp) : Hip :=
  let s := buffer p { s with credit := s.credit - u.tlp.dataCredits, np := release s.np } u
  { s with avail := availCount s.ext s.active }

/-- us_model.py:801-881: a completion in `upstream_recv`. -/
def cplRecv (p : HipParams) (s : Hip) (c : Tlp) : Py Hip :=
  if c.requester_id ∈ s.funcs.map (·.1) then
    match s.active[c.tag]? with
    | none => .error "IndexError"
    | some req =>
      let j := judge req { UsTlp.ofTlp c with errorCode := if c.ep then 1 else 0 }
      .ok (account p { s with active := if j.2 then s.active.set c.tag none else s.active, hist := s.hist ++ [HipObs.cpl c] } j.1)
  else .ok s

end Hip

/-- What can happen, each an uninterrupted stretch of one task. -/
inductive HipEv where
  /-- `_run_rq_logic` gets a request from the user -/
  | rq (u : UsTlp)
  /-- `_run_rq_logic` continues after `rq_np_queue_dequeue` has been set -/
  | rqWake
  /-- `_run_rq_np_queue_logic` gets a request from the queue -/
  | npGet
  /-- `_run_rq_np_queue_logic` continues after `cpld_credit_released` has been set -/
  | npWake
  /-- `upstream_recv` gets a completion -/
  | cpl (c : Tlp)
  /-- `_run_rc_logic` takes a completion from its queue -/
  | rcGet
  /-- `_run_rc_logic` has handed it to the streaming interface -/
  | rcDone
  /-- the configuration of the device is changed -/
  | cfg (ext : Bool) (busNum : Nat) (funcs : List (PcieId × Bool))
deriving DecidableEq, Repr

namespace Hip

/-- us_model.py:1087: `rq_np_queue_dequeue.set()`. -/
def unblock : RqSt → RqSt
  | .blocked t => .ready t
  | r => r

/-- One stretch; `none` means that it cannot happen in this state. us_model.py:1025-1120, 801-881, 1154-1160. -/
def step (p : HipParams) (s : Hip) : HipEv → Option (Py Hip)
  | .rq u => match s.rq with
    | .idle => some (rqRecv p s u)
    | _ => none
  | .rqWake => match s.rq with
    | .ready t => some (.ok (enqueue p s t))
    | _ => none
  | .npGet => match s.np, s.npq with
    | .idle, t :: rest =>
      some (npTry p { s with npq := rest, rq := unblock s.rq } t)
    | _, _ => none
  | .npWake => match s.np with
    | .ready t => some (npTry p s t)
    | _ => none
  | .cpl c => if c.isCompletion then some (cplRecv p s c) else none
  | .rcGet => match s.rcSend, s.rcq with
    | none, u :: rest => some (.ok { s with rcSend := some u, rcq := rest })
    | _, _ => none
  | .rcDone => match s.rcSend with
    | some u => some (.ok { s with rcSend := none, cplh := s.cplh - 1, cpld := s.cpld - (u.tlp.dataCredits + 1), hist := s.hist ++ [.delivered u] })
    | none => none
  | .cfg ext busNum funcs => some (.ok { s with ext := ext, busNum := busNum, funcs := funcs })

/-- A history. -/
def run (p : HipParams) (s : Hip) : List HipEv → Option (Py Hip)
  | [] => some (.ok s)
  | e :: es => match s.step p e with
    | none => none
    | some (.error x) => some (.error x)
    | some (.ok s) => s.run p es

end Hip
end Pcie
