/-
A hierarchy for the examples: a root port with a switch, which has two ports with a device each and one without.
-/
import Verif.Lemmas.FabricRoot
import Verif.Props.Enum
namespace Pcie.HierEx
open Pcie.Spec
variable {σ : Type}

/-- Function `k` of the device at `path`. -/
def fnOf : Node σ → List Nat → Nat → Option (EpFn σ)
  | .dev _ fns, [], k => fns[k]?
  | .sw _ ports, j :: path, k => match ports.list[j]? with
    | some (_, n) => fnOf n path k
    | none => none
  | _, _, _ => none

theorem fnOf_at : ∀ (path : List Nat) (n : Node σ) (k : Nat) (f : EpFn σ), fnOf n path k = some f → FnAt n path k f
  | [], .dev bus fns, k, f, h => .dev h
  | [], .none, _, _, h => by cases h
  | [], .sw _ _, _, _, h => by cases h
  | _ :: _, .none, _, _, h => by cases h
  | _ :: _, .dev _ _, _, _, h => by cases h
  | j :: path, .sw up ports, k, f, h => by
    rw [fnOf] at h
    split at h
    · next b n e => exact .sw e (fnOf_at path n k f h)
    · cases h

/-- A function after reset with 4 KiB of memory, 256 bytes of I/O and 1 MiB of prefetchable memory. -/
def exFn (fn : Nat) : EpFn Unit :=
  { caps := (), multifunction := true, id := ⟨0, 0, fn⟩,
    bars := [⟨0, 0xfffff000⟩, ⟨1, 0xffffff00⟩, ⟨0xc, 0xfff00000⟩, ⟨0, 0xffffffff⟩, {}, {}] }

/-- A bridge after reset. -/
def exPort (dev : Nat) : BrFn Unit := { caps := (), headerLayout := 1, bars := [{}, {}], id := ⟨0, dev, 0⟩ }

/-- A root port with a switch, which has two ports with a device each and one without. -/
def exPorts : Ports Unit :=
  .cons (exPort 1) (.sw (exPort 0)
    (.cons (exPort 1) (.dev 0 [exFn 0, exFn 1]) (.cons (exPort 2) .none (.cons (exPort 3) (.dev 0 [exFn 0]) .nil)))) .nil

/-- The host bridge after reset. -/
def exHost : BrFn Unit := { caps := (), headerLayout := 1, bars := [{}, {}], root := true, subBus := 255 }

theorem exFn_res (k : Nat) : FnRes 6 (exFn k).toCommon [⟨0, false, false, 0, 12⟩, ⟨1, true, false, 0, 8⟩, ⟨2, false, true, 0, 20⟩] none :=
  ⟨.mem32 _ _ _ _ _ _ (by decide) (.io _ _ _ _ _ _ (by decide) (.mem64 _ _ _ _ _ _ _ (by decide)
    (.absent _ _ _ _ rfl (.absent _ _ _ _ rfl (.nil _))))), rfl, rfl, rfl⟩

theorem exPort_res (k : Nat) : FnRes 2 (exPort k).toCommon [] none :=
  ⟨.absent _ _ _ _ rfl (.absent _ _ _ _ rfl (.nil _)), rfl, rfl, rfl⟩

/-- The BARs of the three functions. -/
def exRegs : List Region := (List.replicate 3 [⟨.mem, 0, 0x1000⟩, ⟨.io, 0, 0x100⟩, ⟨.pref, 0, 0x100000⟩]).flatten

theorem exPorts_tree : ∃ rs, Tree Any exPorts.bus.bus rs ∧ rs = exRegs :=
  ⟨_, .br _ _ _ _ _ _ _ _ (exPort_res 1) trivial (.br _ _ _ _ _ _ _ _ (exPort_res 0) trivial
      (.br _ _ _ _ _ _ _ _ (exPort_res 1) trivial (.ep _ _ _ _ _ _ (exFn_res 0) trivial (.ep _ _ _ _ _ _ (exFn_res 1) trivial .nil))
        (.br _ _ _ _ _ _ _ _ (exPort_res 2) trivial .nil (.br _ _ _ _ _ _ _ _ (exPort_res 3) trivial
          (.ep _ _ _ _ _ _ (exFn_res 0) trivial .nil) .nil))) .nil) .nil, by decide⟩

theorem exPorts_reset : AfterReset exHost exPorts exRegs := by
  refine ⟨?_, ?_, ?_, ?_, ?_, ?_, ?_, rfl, rfl, ⟨rfl, rfl⟩, ?_⟩
  rotate_left 3
  · obtain ⟨rs, h, rfl⟩ := exPorts_tree
    exact h
  · decide
  · simp [exPorts, exPort, exFn, Ports.bus, Node.bus, Phys.bus, BrsClean]
    constructor <;> decide
  · intro x hx
    simp only [exPorts, Ports.list, List.mem_cons, List.not_mem_nil, or_false] at hx
    subst hx
    refine ⟨rfl, fun b hb => ?_⟩
    cases hb with
    | up => rfl
    | port h => simp [Ports.list, exPort] at h; rcases h with h | h | h <;> simp [h]
    | deeper h hb =>
      simp only [Ports.list, List.mem_cons, List.not_mem_nil, or_false, Prod.mk.injEq] at h
      rcases h with ⟨-, rfl⟩ | ⟨-, rfl⟩ | ⟨-, rfl⟩ <;> cases hb
  · simp [exHost]
  · constructor <;> simp [exPorts, exPort, exFn, Ports.bus, Node.bus, top, Before, HeaderOk, idDword, Spec.multi]
  · refine ⟨?_, ⟨?_, ⟨?_, trivial, ?_, trivial, ?_, trivial, trivial⟩, trivial⟩, trivial⟩ <;>
      constructor <;> simp [exPorts, exPort, exFn, Ports.bus, Node.bus, top, Before, HeaderOk, idDword, Spec.multi]
  · simp [exPorts, exPort, exFn, Ports.bus, Node.bus, NoNumbers]

/-- The limits after enumeration. -/
def exLim : Limits := ⟨0x80002000, 0xc0200000, 0x8000000000300000⟩

theorem exFits : Fits exLim := ⟨by decide, by decide, by decide⟩

theorem run_get {α β : Type} {x : Py (α × Limits)} {l : Limits} {g : α → Option β} {q : β → Prop} [DecidablePred q]
    (h1 : x.toOption.map (·.2) = some l) (h2 : x.toOption.any (fun p => (g p.1).any fun b => decide (q b)) = true) :
    ∃ n b, x = .ok (n, l) ∧ g n = some b ∧ q b := by
  cases x with
  | error e => cases h1
  | ok p =>
    obtain ⟨n, l'⟩ := p
    simp only [Except.toOption, Option.map_some, Option.some.injEq] at h1
    subst h1
    simp only [Except.toOption, Option.any_some] at h2
    cases hg : g n with
    | none => rw [hg] at h2; cases h2
    | some b => rw [hg] at h2; exact ⟨n, b, rfl, hg, by simpa using h2⟩

/-- What the examples need to know about function 1 behind the first port, and the function behind the last port. -/
theorem exRun : ∃ n f g, enumerateAll noCaps 5 exHost exPorts = .ok (n, exLim) ∧ FnAt n [0, 0] 1 f ∧ FnAt n [0, 2] 0 g ∧
    f.id = ⟨3, 0, 1⟩ ∧ f.handlers = (exFn 0).handlers ∧ matchBar f.bars 0xc0001004 false = .ok (some (0, 4)) ∧
    g.id = ⟨5, 0, 0⟩ ∧ g.handlers = (exFn 0).handlers ∧ matchBar g.bars 0x8000000000200010 false = .ok (some (2, 0x10)) ∧
    FnRes 6 f.toCommon [⟨0, false, false, 0xc0001000, 12⟩, ⟨1, true, false, 0x80000100, 8⟩, ⟨2, false, true, 0x8000000000100000, 20⟩] none ∧
    FnRes 6 g.toCommon [⟨0, false, false, 0xc0100000, 12⟩, ⟨1, true, false, 0x80001000, 8⟩, ⟨2, false, true, 0x8000000000200000, 20⟩] none := by
  obtain ⟨n, ⟨f, g⟩, e, h, h1, h2, h3, h4, h5, h6, h7, h8, h9, h10, h11, h12⟩ := run_get (x := enumerateAll noCaps 5 exHost exPorts) (l := exLim)
    (g := fun n => match fnOf n [0, 0] 1, fnOf n [0, 2] 0 with | some f, some g => some (f, g) | _, _ => none)
    (q := fun p => p.1.id = ⟨3, 0, 1⟩ ∧ p.1.handlers = (exFn 0).handlers ∧
      (matchBar p.1.bars 0xc0001004 false).toOption = some (some (0, 4)) ∧
      p.2.id = ⟨5, 0, 0⟩ ∧ p.2.handlers = (exFn 0).handlers ∧ (matchBar p.2.bars 0x8000000000200010 false).toOption = some (some (2, 0x10)) ∧
      p.1.bars = [⟨0xc0001000, 0xfffff000⟩, ⟨0x80000101, 0xffffff00⟩, ⟨0x10000c, 0xfff00000⟩, ⟨0x80000000, 0xffffffff⟩, {}, {}] ∧
      p.2.bars = [⟨0xc0100000, 0xfffff000⟩, ⟨0x80001001, 0xffffff00⟩, ⟨0x20000c, 0xfff00000⟩, ⟨0x80000000, 0xffffffff⟩, {}, {}] ∧
      p.1.romMask = 0 ∧ p.1.romAddr = 0 ∧ p.2.romMask = 0 ∧ p.2.romAddr = 0)
    (by decide +kernel) (by decide +kernel)
  have ok : ∀ {α} {x : Py α} {v : α}, x.toOption = some v → x = .ok v := by
    intro α x v h
    cases x with
    | error e => cases h
    | ok w => cases h; rfl
  split at h
  · next f' g' hf hg =>
    cases h
    refine ⟨n, f, g, e, fnOf_at _ _ _ _ hf, fnOf_at _ _ _ _ hg, h1, h2, ok h3, h4, h5, ok h6, ?_, ?_⟩
    · refine ⟨?_, by rw [h7]; rfl, h9, h10⟩
      rw [h7]
      exact .mem32 _ _ _ _ _ _ (by decide) (.io _ _ _ _ _ _ (by decide) (.mem64 _ _ _ _ _ _ _ (by decide)
        (.absent _ _ _ _ rfl (.absent _ _ _ _ rfl (.nil _)))))
    · refine ⟨?_, by rw [h8]; rfl, h11, h12⟩
      rw [h8]
      exact .mem32 _ _ _ _ _ _ (by decide) (.io _ _ _ _ _ _ (by decide) (.mem64 _ _ _ _ _ _ _ (by decide)
        (.absent _ _ _ _ rfl (.absent _ _ _ _ rfl (.nil _)))))
  · cases h

end Pcie.HierEx
