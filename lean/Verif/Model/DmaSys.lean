import Verif.Model.UsDma
import Verif.Model.Completer
/-
User logic behind a Xilinx hard IP model (xilinx/us/us_model.py, xilinx/us/usp_model.py) at work on host memory: the requester side of `UsHip.lean`, a link that delivers the packets in the
order in which they are sent, and a root complex (core/rc.py) that handles them one after the other.
-/
namespace Pcie

/-- What happens to the host's memory, for the record: the root complex handles a request (rc.py:208-217), or somebody else (the host's program, another device) changes the contents. -/
inductive MemAct where
  | req (t : Tlp)
  | other (m : Mem)

/-- The device and its requests, as in `Dma` (us_model.py:328-359); the packets on the way to the root complex, oldest first; its memory and I/O address spaces (rc.py:98-99); how many of the
requests have been answered; and the record of what has happened to the memory. -/
structure DmaSys where
  hip : Hip
  reqs : List DmaReq := []
  link : List Tlp := []
  mem : AddrSpace
  io : AddrSpace
  served : Nat := 0
  log : List MemAct := []

/-- What happens: a task of the device runs (us_model.py:1025-1120, 1154-1160, any event but the arrival of a completion); the root complex handles the next packet (rc.py:203-217); the
contents of memory and I/O space change otherwise; or the next completion of request number `i` arrives (us_model.py:801-881). -/
inductive SysEv where
  | dev (e : HipEv)
  | host
  | other (m io : Mem)
  | cpl (i : Nat)

/-- The arrival of a completion (us_model.py:801-881). -/
def HipEv.isCpl : HipEv → Bool
  | .cpl _ => true
  | _ => false

namespace DmaSys

/-- rc.py:304-493: the completions sent by a handler, here for the request that is next in the list. -/
def answer (s : DmaSys) (ans : List Tlp) : DmaSys :=
  { s with reqs := s.reqs.modify s.served fun q => { q with ans := ans }, served := s.served + 1 }

/-- rc.py:203-217 `downstream_recv`, `handle_tlp` with the handlers of rc.py:132-137. Simplifications: reading and writing the address spaces takes no time; packets without a handler include
completions, which are not sent on the requester side. -/
def handle (cfg : CplCfg) (s : DmaSys) (t : Tlp) : Py DmaSys :=
  match t.fmtType with
  | some .MEM_READ | some .MEM_READ_64 => .ok (s.answer (Rc.handleMemRead cfg s.mem t))
  | some .MEM_WRITE | some .MEM_WRITE_64 => .ok { s with mem := Rc.handleMemWrite s.mem t }
  | some .IO_READ => match Rc.handleIoRead cfg.id s.io t with
    | .error e => .error e
    | .ok ans => .ok (s.answer ans)
  | some .IO_WRITE => match Rc.handleIoWrite cfg.id s.io t with
    | .error e => .error e
    | .ok (io, ans) => .ok ({ s with io := io }.answer ans)
  | _ => .error "Unhandled TLP"

/-- The packets sent (us_model.py:1059, 1118) according to some observations. -/
def sentTlps (h : List HipObs) : List Tlp := h.filterMap fun | .sent t => some t | _ => none

/-- One event; `none` means that it cannot happen in this state (us_model.py:801-881, 1025-1120, 1154-1160, rc.py:203-217). The completions of a request arrive in order. -/
def step (p : HipParams) (cfg : CplCfg) (s : DmaSys) : SysEv → Option (Py DmaSys)
  | .dev e => if e.isCpl then none else match s.hip.step p e with
    | none => none
    | some (.error x) => some (.error x)
    | some (.ok h) =>
      let new := h.hist.drop s.hip.hist.length
      some (.ok { s with hip := h, link := s.link ++ sentTlps new, reqs := s.reqs ++ (Dma.sentNp new).map fun t => { req := t, ans := [] } })
  | .host => match s.link with
    | [] => none
    | t :: rest => some (handle cfg { s with link := rest, log := s.log ++ [.req t] } t)
  | .other m io => some (.ok { s with mem := { s.mem with mem := m }, io := { s.io with mem := io }, log := s.log ++ [.other m] })
  | .cpl i => match s.reqs[i]? with
    | none => none
    | some q => match q.ans[q.done]? with
      | none => none
      | some c => match s.hip.step p (.cpl c) with
        | none => none
        | some (.error x) => some (.error x)
        | some (.ok h) => some (.ok { s with hip := h, reqs := s.reqs.set i { q with done := q.done + 1 } })

/-- A history (us_model.py:801-881, 1025-1120, 1154-1160, rc.py:203-217). -/
def run (p : HipParams) (cfg : CplCfg) (s : DmaSys) : List SysEv → Option (Py DmaSys)
  | [] => some (.ok s)
  | e :: es => match s.step p cfg e with
    | none => none
    | some (.error x) => some (.error x)
    | some (.ok s) => s.run p cfg es

end DmaSys
end Pcie
