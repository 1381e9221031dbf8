import Verif.Model.Handshake
/-
What was given to a source, and what is on its way to the sink.
-/
namespace Pcie.Spec

/-- The transactions that the source was given, in order. -/
def hsGiven {α} (es : List (Hs.Ev α)) : List α := es.filterMap fun | .give a => some a | _ => none

/-- The transactions on their way: on the bus, in the source, waiting for it. -/
def hsWay {α} (s : Hs.St α) : List α := (if s.valid then s.bus.toList else []) ++ s.drive.toList ++ s.todo

/-- The transactions that the AXI-stream source was given, in order. -/
def axisGiven {α} (es : List (Axis.Ev α)) : List α := es.filterMap fun | .give a => some a | _ => none

/-- Likewise for the AXI stream. -/
def axisWay {α} (s : Axis.St α) : List α := (if s.valid then s.bus.toList else []) ++ s.drive.toList ++ s.todo

/-- The number of clock edges. -/
def hsEdges {α} (es : List (Hs.Ev α)) : Nat := es.countP fun | .edge _ _ => true | _ => false
@[inherit_doc hsEdges] def axisEdges {α} (es : List (Axis.Ev α)) : Nat := es.countP fun | .edge _ => true | _ => false

/-- The sink is paused, or full, at every clock edge. -/
def hsPaused {α} (es : List (Hs.Ev α)) : Prop := ∀ p q, Hs.Ev.edge p q ∈ es → q = true

/-- Whether the sink is paused after these events: the value that `pause` was last set to. -/
def axisPaused {α} (es : List (Axis.Ev α)) : Bool := es.foldl (fun b e => match e with | .setPause v => v | _ => b) false

/-- Whether the queue of the sink is full after these events. -/
def axisFull {α} (es : List (Axis.Ev α)) : Bool :=
  es.foldl (fun b e => match e with | .queued f => b || f | .recv f => b && f | _ => b) false

end Pcie.Spec
