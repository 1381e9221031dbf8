import Verif.Model.Msi
/-
Model of the interrupt ports of the hard IP models: `_run_cfg_int_logic` of xilinx/us/us_model.py and usp_model.py, and `_run_int_logic` of intel/s10/s10_model.py. (That of
intel/ptile/ptile_model.py is empty.) The code of usp_model.py:1555-1663 differs from us_model.py:1427-1541 only in the number of functions with MSI-X ports (`nx`).
-/
namespace Pcie

/-- The capabilities `msi_cap` and `msix_cap` of a function. -/
structure IntFn where
  msi : MsiCap := {}
  msix : MsixCap := {}
deriving DecidableEq, Repr

/-- A memory write that reports an interrupt, as it is handed to `mem_write` (caps/msi.py:181, 242). `fn` is the position of the function that sends it; `sel` is `attr` (Xilinx) or `tc` (Intel). -/
structure IntMsg where
  fn : Nat
  addr : Nat
  data : Nat
  sel : Nat
deriving DecidableEq, Repr

/-! ### Xilinx -/

/-- us_model.py:1444-1464: what the user drives, as it is at a clock edge. -/
structure IntIn where
  msiInt : Nat := 0
  fn : Nat := 0
  attr : Nat := 0
  select : Nat := 0
  pendEnable : Bool := false
  pendFn : Nat := 0
  pend : Nat := 0
  msixInt : Bool := false
  msixAddr : Nat := 0
  msixData : Nat := 0
deriving DecidableEq, Repr

/-- The outputs `cfg_interrupt_msi_…` and `cfg_interrupt_msix_…`. Simplification: all signals are present. (`…_fail` is always 0.) -/
structure IntOut where
  msiEnable : Nat := 0
  msiSent : Bool := false
  mmEnable : Nat := 0
  msiData : Nat := 0
  msixEnable : Nat := 0
  msixMask : Nat := 0
  msixSent : Bool := false
deriving DecidableEq, Repr

/-- Where the task is: waiting for the clock, or until a message is taken by the link. -/
inductive IntSt where
  | idle
  | msi (i : IntIn)
  | msix
deriving DecidableEq, Repr

/-- What can be seen from outside (a history, not part of the code): a clock edge with what the user and the model drive, a message, and any change of the functions by others. -/
inductive IntObs where
  | edge (i : IntIn) (o : IntOut)
  | msi (m : IntMsg)
  | msix (m : IntMsg)
  | env (fns : List IntFn)
deriving DecidableEq, Repr

/-- The functions, the task and the outputs. -/
structure IntPort where
  fns : List IntFn
  st : IntSt := .idle
  out : IntOut := {}
  hist : List IntObs := []
deriving DecidableEq, Repr

/-- What can happen. -/
inductive IntEv where
  | clock (i : IntIn)
  /-- the link takes the message -/
  | taken
  /-- the functions are changed by others -/
  | env (fns : List IntFn)
deriving DecidableEq, Repr

namespace IntPort

/-- us_model.py:1474-1478: a bit for each of the first `n` functions. -/
def bitsOf (n : Nat) (p : IntFn → Bool) : Nat → List IntFn → Nat
  | _, [] => 0
  | k, f :: fs => if k < n then (if p f then 1 <<< k else 0) ||| bitsOf n p (k + 1) fs else 0

/-- us_model.py:1496-1499. -/
def mmBits (n : Nat) : Nat → List IntFn → Nat
  | _, [] => 0
  | k, f :: fs => if k < n then (f.msi.mme &&& 0x7) <<< (k * 3) ||| mmBits n (k + 1) fs else 0

/-- us_model.py:1487: the positions of the bits. -/
def bits (x : Nat) : List Nat := (List.range 32).filter fun i => x.testBit i

/-- us_model.py:1495-1541: what follows after the MSI part. `nx` is 2 for UltraScale, 4 for UltraScale+ (usp_model.py). -/
def afterMsi (nx : Nat) (s : IntPort) (i : IntIn) : Py IntPort :=
  let out := { s.out with
    mmEnable := mmBits 2 0 s.fns
    msiData := if i.select = 15 then 0 else match s.fns[i.select]? with | some f => f.msi.maskBits | none => 0 }
  let fns := if i.pendEnable then
      match s.fns[i.pendFn]? with
      | some f => s.fns.set i.pendFn { f with msi := { f.msi with pending := i.pend } }
      | none => s.fns
    else s.fns
  let out := { out with
    msixEnable := bitsOf nx (·.msix.enable) 0 fns
    msixMask := bitsOf nx (·.msix.functionMask) 0 fns
    msixSent := false }
  let s := { s with fns, out, st := .idle }
  if i.msixInt then
    match s.fns[i.fn]? with
    | none => .ok s
    | some f => match f.msix.issue i.msixAddr i.msixData with
      | .error e => .error e
      | .ok (a, d) => .ok { s with st := .msix, hist := s.hist ++ [.msix ⟨i.fn, a, d, i.attr⟩] }
  else .ok s

/-- us_model.py:1427-1541: one event; `none` means that it cannot happen in this state. Simplification: the task always waits for the link, although `mem_write` returns at once if there is
room; signals that the model assigns have their new value at the next clock edge. -/
def step (nx : Nat) (s : IntPort) : IntEv → Option (Py IntPort)
  | .env fns => some (.ok { s with fns, hist := s.hist ++ [.env fns] })
  | .clock i =>
    let s : IntPort := { s with hist := s.hist ++ [.edge i s.out] }
    match s.st with
    | .idle =>
      let s : IntPort := { s with out := { s.out with msiEnable := bitsOf 2 (·.msi.enable) 0 s.fns, msiSent := false } }
      match bits i.msiInt, s.fns[i.fn]? with
      | [b], some f =>
        some (match f.msi.issue b with
          | .error e => .error e
          | .ok (a, d) => .ok { s with st := .msi i, hist := s.hist ++ [.msi ⟨i.fn, a, d, i.attr⟩] })
      | _, _ => some (afterMsi nx s i)
    | _ => some (.ok s)
  | .taken =>
    match s.st with
    | .idle => none
    | .msi i => some (afterMsi nx { s with out := { s.out with msiSent := true } } i)
    | .msix => some (.ok { s with st := .idle, out := { s.out with msixSent := true } })

/-- A history. -/
def run (nx : Nat) (s : IntPort) : List IntEv → Option (Py IntPort)
  | [] => some (.ok s)
  | e :: es => match s.step nx e with
    | none => none
    | some (.error x) => some (.error x)
    | some (.ok s) => s.run nx es

end IntPort

/-! ### Intel Stratix 10 -/

/-- s10_model.py:832-839: what the user drives, as it is at a clock edge. -/
structure AppIn where
  req : Bool := false
  fn : Nat := 0
  num : Nat := 0
  tc : Nat := 0
deriving DecidableEq, Repr

/-- Where the task is: waiting for a request, waiting until the link takes the message, waiting for the end of the acknowledge pulse, waiting for the end of the request. -/
inductive AppSt where
  | wait
  | sending
  | acked
  | release
deriving DecidableEq, Repr

/-- What can be seen from outside, as `IntObs`. -/
inductive AppObs where
  | edge (i : AppIn) (ack : Bool)
  | msi (m : IntMsg)
  | env (fns : List IntFn)
deriving DecidableEq, Repr

/-- The functions, the task and the output `app_msi_ack`. -/
structure AppMsi where
  fns : List IntFn
  st : AppSt := .wait
  ack : Bool := false
  hist : List AppObs := []
deriving DecidableEq, Repr

/-- What can happen. -/
inductive AppEv where
  | clock (i : AppIn)
  | taken
  | env (fns : List IntFn)
deriving DecidableEq, Repr

namespace AppMsi

/-- s10_model.py:823-846: one event; `none` means that it cannot happen in this state. Simplifications: as in `IntPort.step`; the request changes only with the clock, so that waiting for its
rising edge and then for the clock is the same as looking at it at every clock edge. -/
def step (s : AppMsi) : AppEv → Option (Py AppMsi)
  | .env fns => some (.ok { s with fns, hist := s.hist ++ [.env fns] })
  | .clock i =>
    let s : AppMsi := { s with hist := s.hist ++ [.edge i s.ack] }
    match s.st with
    | .wait =>
      if i.req then
        match s.fns[i.fn]? with
        | none => some (.error "IndexError")
        | some f => match f.msi.issue i.num with
          | .error e => some (.error e)
          | .ok (a, d) => some (.ok { s with st := .sending, hist := s.hist ++ [.msi ⟨i.fn, a, d, i.tc⟩] })
      else some (.ok s)
    | .sending => some (.ok s)
    | .acked => some (.ok { s with ack := false, st := if i.req then .release else .wait })
    | .release => some (.ok { s with st := if i.req then .release else .wait })
  | .taken =>
    match s.st with
    | .sending => some (.ok { s with ack := true, st := .acked })
    | _ => none

/-- A history. -/
def run (s : AppMsi) : List AppEv → Option (Py AppMsi)
  | [] => some (.ok s)
  | e :: es => match s.step e with
    | none => none
    | some (.error x) => some (.error x)
    | some (.ok s) => s.run es

end AppMsi
end Pcie
