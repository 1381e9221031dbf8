import Verif.Model.StreamQueue
import Verif.Spec.Handshake
import Verif.Spec.Stream
/-
What the users of the queues of sources and sinks see.
-/
namespace Pcie.Spec
open Sq
variable {F C T B V : Type}

/-- A source to which nothing has happened. -/
def fresh (W : Wires T B V) : Src F C T B V := { wires := W.init }

/-- The frames that have been put in the queue of a source, in order. -/
def accepted (s : Src F C T B V) : List F := s.log.filterMap id

/-- Every clock edge comes when the source's tasks have done everything that they can do: in particular, the task that sends did not run at the same clock edge before the source. -/
def Settled (P : Packer F C T) (W : Wires T B V) (l : Limits) (es : List (SrcEv F V)) : Prop :=
  ∀ pre e post, es = pre ++ .bus e :: post → W.edge e = true → ∀ s, (fresh W).run P W l pre = some (.ok s) → s.canWork W = false

/-- What a queue holds. -/
def bytesIn (size : F → Nat) (q : List F) : Nat := (q.map size).sum

/-- The frames with which `send` was called. -/
def calls (es : List (SrcEv F V)) : List F := es.filterMap fun | .send f => some f | _ => none

end Pcie.Spec
