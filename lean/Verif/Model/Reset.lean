/-
The reset of the hard IP models: xilinx/us/us_model.py, xilinx/us/usp_model.py, intel/s10/s10_model.py and intel/ptile/ptile_model.py, `_run_reset`, with `_run_cfg_ctrl_logic` and the link
status of the first two. Line numbers without a file are those of xilinx/us/us_model.py (usp_model.py:1088-1115, s10_model.py:718-753 and ptile_model.py:864-895 have the same code).

Simplifications: the inputs are 0 or 1; what happens at the same simulation time happens in some order.
-/
namespace Pcie
namespace Rst

/-- Where the task of `_run_reset` waits: for the first (948) and second (949) clock edge, for the input to rise (956), for 100 ns or a falling edge (957, 962), for a clock edge or a falling
edge (958, 963), and for a falling edge when the reset has been released (969); `over`: it has returned (971). -/
inductive Phase
  | first
  | second
  | high
  | timer (due : Nat)
  | last
  | out
  | over
deriving DecidableEq, Repr

/-- `now` in steps of the simulator; `sys`: the input (`sys_reset`, `pin_perst`, `pin_perst_n`, active low); `reset`: the output (`user_reset`, `reset_status`, `clr_st`, `pld_clk_inuse`);
`resetN`: ptile_model.py:394 `reset_status_n`; `enIn`: the input `cfg_config_space_enable`; `enable`: `config_space_enable`; `linkUp`: `user_lnk_up`. -/
structure St where
  now : Nat := 0
  phase : Phase := .first
  sys : Bool
  reset : Bool := false
  resetN : Bool := false
  enIn : Bool := false
  enable : Bool
  linkUp : Bool := false
deriving DecidableEq, Repr

/-- The connected signals: `sys_reset` and `cfg_config_space_enable`; and the number of steps in 100 ns. -/
structure Conf where
  hasSys : Bool
  hasEn : Bool
  hundred : Nat
deriving DecidableEq, Repr

/-- 397 and ptile_model.py:394 (initial values), 720-721: the start. -/
def St.init (c : Conf) (sys : Bool) : St := { sys := sys, enable := !c.hasEn }

/-- What happens: time passes, a clock edge, an edge of the input, the timer expires, the user changes `cfg_config_space_enable`. -/
inductive Ev
  | pass (d : Nat)
  | clk
  | rise
  | fall
  | timer
  | setEn (b : Bool)
deriving DecidableEq, Repr

/-- 951-957, 962: the outputs are set, and the task goes on to wait. -/
def St.assert (c : Conf) (s : St) : St :=
  { s with reset := true, resetN := false, phase := if c.hasSys && !s.sys then .high else .timer (s.now + c.hundred) }

/-- 959-971: after the last wait. -/
def St.finish (c : Conf) (s : St) : St :=
  if c.hasSys && !s.sys then { s with phase := .first }
  else { s with reset := false, resetN := true, phase := if c.hasSys then .out else .over }

/-- 1217-1226, 1400-1406: the other tasks at a clock edge. -/
def St.status (c : Conf) (s : St) : St :=
  if c.hasSys && !s.sys then { s with enable := false, linkUp := false }
  else { s with enable := if c.hasEn then s.enIn else true, linkUp := true }

/-- One event; `none` if it cannot happen. -/
def St.step (c : Conf) (s : St) : Ev → Option St
  | .pass d => match s.phase with
    | .timer due => if s.now + d ≤ due then some { s with now := s.now + d } else none
    | _ => some { s with now := s.now + d }
  | .clk =>
    let s := s.status c
    match s.phase with
    | .first => some { s with phase := .second }
    | .second => some (s.assert c)
    | .last => some (s.finish c)
    | _ => some s
  | .rise => if c.hasSys && !s.sys then
      let s := { s with sys := true }
      match s.phase with
      | .high => some { s with phase := .timer (s.now + c.hundred) }
      | _ => some s
    else none
  | .fall => if c.hasSys && s.sys then
      let s := { s with sys := false }
      match s.phase with
      | .timer _ => some { s with phase := .last }
      | .last => some (s.finish c)
      | .out => some { s with phase := .first }
      | _ => some s
    else none
  | .timer => match s.phase with
    | .timer due => if s.now = due then some { s with phase := .last } else none
    | _ => none
  | .setEn b => some { s with enIn := b }

/-- A history. -/
def St.run (c : Conf) (s : St) : List Ev → Option St
  | [] => some s
  | e :: es => match s.step c e with
    | none => none
    | some s => s.run c es

end Rst
end Pcie
