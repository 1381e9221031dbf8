import Verif.Model.Conc
import Verif.Model.EndToEnd
/-
The completer of `Conc.lean` at the other end of a whole hierarchy: the requests of an agent of `EndToEnd.lean` go through all switches to whoever has the address, and its completions come
back through them.
-/
namespace Pcie

/-- What the requests of the agent `a` do to the system, and the completions that get back to the agent (rc.py:196-220, function.py:427-463; the hierarchy between: `Sys.request`).
Simplification: a request and its completions are followed through the hierarchy when the request is handled; the time that they take is that on the in-order link of `Conc` and in its
`arrive` events. Handling a read request leaves the system as it is (see `C78_hierarchy_read_only`). -/
def Completer.sys {σ : Type} (a : Agent) : Completer (Sys σ) where
  write s t := (s.request a t).map (·.1)
  read s t := (s.request a t).map (·.2)

end Pcie
