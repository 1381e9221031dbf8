import Verif.Model.FcTime
import Verif.Spec.SimPort
/-
Time until credits come back.
-/
namespace Pcie

/-- The event seen from the other end. -/
def ClockEv.swap : ClockEv → ClockEv
  | .port b e => .port (!b) e
  | .advance t => .advance t

namespace Spec

/-- Credits of kind `w` that a receiver has released so far: those of the TLPs it received, without those it still holds. -/
def released (w : Credit) (p : Port) : Nat := units w p.delivered - held w p.fc.dict

/-- How many TLPs a receiver has received and how many it has released, together. -/
def traffic (p : Port) : Nat := p.delivered.length + (p.delivered.length - p.fc.dict.length)

/-- A link after reset: nothing on the wires, no timer running except the idle timers, which have not expired. -/
def FreshClock (c : ClockLink) : Prop :=
  FreshTimed c.l ∧ c.ta.ackAt = none ∧ c.ta.fcAt = none ∧ c.tb.ackAt = none ∧ c.tb.fcAt = none ∧ c.l.now ≤ c.ta.idleAt ∧ c.l.now ≤ c.tb.idleAt

/-- The time within which credits come back when there are `n` TLPs received or released meanwhile: the latency of the update timer, the time of one packet (at most `D`)
that is being sent, and the times of DLLPs (at most `d` each) that are sent before, and the delay of the link. -/
def returnTime (cfg : ClockCfg) (D d n : Nat) : Nat := max cfg.latency 1 + D + (n + 5) * d + cfg.delay

/-- The work of the user of a port: sending a TLP, taking a received one from the queue, releasing it. -/
def isUser : ClockAct → Bool
  | .timed (.act (.send _)) | .timed (.act .take) | .timed (.act (.release _)) => true
  | _ => false

/-- An event that is the work of a user. -/
def evUser : ClockEv → Bool
  | .port _ e => isUser e
  | .advance _ => false

end Spec
end Pcie
