import Verif.Model.CapSpace
/-
Model of the configuration management port of the Xilinx hard IP models (xilinx/us/us_model.py, xilinx/us/usp_model.py, `_run_cfg_mgmt_logic`).
-/
namespace Pcie

/-- us_model.py:1183-1189, usp_model.py:1342-1347: what the user drives, as it is at a clock edge. `fn` is `cfg_mgmt_function_number`, which only UltraScale+ has. -/
structure MgmtIn where
  addr : Nat := 0
  fn : Nat := 0
  writeData : Nat := 0
  be : Nat := 0
  read : Bool := false
  write : Bool := false
deriving DecidableEq, Repr

/-- An access to a configuration register. -/
inductive MgmtAccess where
  | read (fn reg : Nat) (val : Nat)
  | write (fn reg data be : Nat)
  /-- an access to an internal register, which does nothing -/
  | internal
deriving DecidableEq, Repr

/-- Where the task is: waiting for a request, or for some more clock edges before the access. -/
inductive MgmtSt where
  | idle
  | busy (i : MgmtIn) (left : Nat)
deriving DecidableEq, Repr

/-- What can be seen from outside (a history, not part of the code): a clock edge with what the user and the model drive, an access, and any change of the functions by others. -/
inductive MgmtObs (σ : Type) where
  | edge (i : MgmtIn) (done : Bool) (readData : Nat)
  | access (a : MgmtAccess)
  | env (fns : List (Fn σ))

/-- The functions of the device, the task, and the outputs `cfg_mgmt_read_write_done` and `cfg_mgmt_read_data`. -/
structure Mgmt (σ : Type) where
  fns : List (Fn σ)
  st : MgmtSt := .idle
  done : Bool := false
  readData : Nat := 0
  hist : List (MgmtObs σ) := []

/-- What can happen: a clock edge, or a change of the functions by others, such as configuration requests of the host. -/
inductive MgmtEv (σ : Type) where
  | clock (i : MgmtIn)
  | env (fns : List (Fn σ))

namespace Mgmt
variable {σ : Type} (ops : CapOps σ)

/-- us_model.py:1184-1185, usp_model.py:1342-1343: function and register; `usp` tells which model it is. -/
def target (usp : Bool) (i : MgmtIn) : Nat × Nat :=
  if usp then (i.fn, i.addr) else (i.addr >>> 10 &&& 0x7f, i.addr &&& 0x3ff)

/-- us_model.py:1196-1207, usp_model.py:1354-1358: the access; reading wins. The assignment to the signal raises for a value of more than 32 bits. -/
def access (usp : Bool) (s : Mgmt σ) (i : MgmtIn) : Py (Mgmt σ) :=
  let t := target usp i
  if ¬ usp ∧ i.addr &&& 1 <<< 18 ≠ 0 then .ok { s with hist := s.hist ++ [.access .internal] }
  else match s.fns[t.1]? with
    | none => .error "IndexError"
    | some f =>
      if i.read then
        let v := f.read ops t.2
        if v < 2 ^ 32 then .ok { s with readData := v, hist := s.hist ++ [.access (.read t.1 t.2 v)] } else .error "OverflowError"
      else
        .ok { s with fns := s.fns.set t.1 (f.write ops t.2 i.writeData i.be), hist := s.hist ++ [.access (.write t.1 t.2 i.writeData i.be)] }

/-- us_model.py:1178-1209, usp_model.py:1337-1360: one clock edge. The functions read and write registers without waiting (function.py:249-257). Simplification: signals that
the model assigns have their new value at the next clock edge. -/
def clock (usp : Bool) (s : Mgmt σ) (i : MgmtIn) : Py (Mgmt σ) :=
  let s : Mgmt σ := { s with hist := s.hist ++ [.edge i s.done s.readData] }
  match s.st with
  | .idle =>
    if s.done then .ok { s with done := false }
    else if i.read ∨ i.write then .ok { s with st := .busy i 3 }
    else .ok s
  | .busy j left =>
    if left ≤ 1 then
      match access ops usp { s with st := .idle } j with
      | .error e => .error e
      | .ok s => .ok { s with done := true }
    else .ok { s with st := .busy j (left - 1) }

/-- One event. -/
def step (usp : Bool) (s : Mgmt σ) : MgmtEv σ → Py (Mgmt σ)
  | .clock i => clock ops usp s i
  | .env fns => .ok { s with fns, hist := s.hist ++ [.env fns] }

/-- A history. -/
def run (usp : Bool) (s : Mgmt σ) : List (MgmtEv σ) → Py (Mgmt σ)
  | [] => .ok s
  | e :: es => match step ops usp s e with
    | .error x => .error x
    | .ok s => s.run usp es

end Mgmt
end Pcie
