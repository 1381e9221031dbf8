import Verif.Model.Reset
/-
What the user sees of a reset.
-/
namespace Pcie.Spec
open Rst

/-- How much time passes. -/
def rstTime : List Ev → Nat
  | [] => 0
  | .pass d :: es => d + rstTime es
  | _ :: es => rstTime es

/-- The number of clock edges. -/
def rstClocks (es : List Ev) : Nat := es.count .clk

/-- Since when the reset input has been inactive (high), if it is; `t` and `since` are the time and the answer at the start. -/
def highSince : Nat → Option Nat → List Ev → Option Nat
  | _, since, [] => since
  | t, since, .pass d :: es => highSince (t + d) since es
  | t, _, .rise :: es => highSince t (some t) es
  | t, _, .fall :: es => highSince t none es
  | t, since, _ :: es => highSince t since es

/-- The value of `cfg_config_space_enable` at the end (it starts with 0). -/
def lastEn (es : List Ev) : Bool := es.foldl (fun b e => match e with | .setEn b' => b' | _ => b) false

/-- Whenever the reset input is active, it is so for a clock edge. -/
def LongPulses (es : List Ev) : Prop := ∀ pre mid post, es = pre ++ .fall :: mid ++ .rise :: post → .rise ∉ mid → .clk ∈ mid

end Pcie.Spec
