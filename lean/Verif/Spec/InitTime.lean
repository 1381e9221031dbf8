import Verif.Spec.FcTime
/-
Time until a link is initialised, when a DLLP takes the time `d`.
-/
namespace Pcie.Spec

/-- After this time both ports have received the three InitFC1 DLLPs of the other. -/
def exchangeTime (cfg : ClockCfg) (d : Nat) : Nat := 3 * d + cfg.delay

/-- Before this time no port is initialised: four DLLPs one after the other, and two delays of the link. -/
def initEarliest (cfg : ClockCfg) (d : Nat) : Nat := 4 * d + 2 * cfg.delay

/-- After this time both ports are initialised: five DLLPs and two delays. -/
def initLatest (cfg : ClockCfg) (d : Nat) : Nat := 5 * d + 2 * cfg.delay

end Pcie.Spec
