import Verif.Model.FcOut
import Verif.Spec.Port
/-
Specification vocabulary for the ports that show credits.
-/
namespace Pcie.Spec
open Pcie

/-- The output for a kind of credit. -/
def fcShown (o : FcOut) : Credit → Nat
  | (.P, false) => o.ph
  | (.P, true) => o.pd
  | (.NP, false) => o.nph
  | (.NP, true) => o.npd
  | (.CPL, false) => o.cplh
  | (.CPL, true) => o.cpld

/-- The width of the output in bits. -/
def outBits (w : Credit) : Nat := if w.2 then 12 else 8

/-- The width of the counter on the link in bits. -/
def linkBits (w : Credit) : Nat := if w.2 then 16 else 12

/-- The output of Stratix 10 for a kind of credit. -/
def s10Signal : Credit → String
  | (.P, false) => "tx_ph_cdts"
  | (.P, true) => "tx_pd_cdts"
  | (.NP, false) => "tx_nph_cdts"
  | (.NP, true) => "tx_npd_cdts"
  | (.CPL, false) => "tx_cplh_cdts"
  | (.CPL, true) => "tx_cpld_cdts"

/-- The index of P-Tile for a kind of credit. -/
def ptileIdx : Credit → Nat
  | (.P, false) => 0
  | (.NP, false) => 1
  | (.CPL, false) => 2
  | (.P, true) => 4
  | (.NP, true) => 5
  | (.CPL, true) => 6

end Pcie.Spec
