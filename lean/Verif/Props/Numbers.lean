import Verif.Lemmas.Numbers
import Mathlib.Data.List.Induction
/-
C38: function and device numbers.
-/
namespace Pcie
open Spec

/-- After any sequence of successful calls, the functions of a device have distinct numbers, so there are at most 8; and as
soon as there are two, all of them are marked as functions of a multifunction device. -/
theorem C38_functions {ops : List DevCall} {d : DevNums} (h : ops.foldlM DevNums.run {} = .ok d) (ho : FnIds ops) :
    (d.fns.map (·.id.function)).Nodup ∧ (∀ f ∈ d.fns, f.id.function ≤ 7) ∧ (2 ≤ d.fns.length → ∀ f ∈ d.fns, f.multi = true) :=
  have hi := DevNums.inv_all ops DevNums.inv_empty ho h
  ⟨hi.nodup, hi.le, hi.multi⟩

/-- `append_function` gives the lowest free function number, and fails only if all eight numbers are in use. -/
theorem C38_append_function {ops : List DevCall} {d : DevNums} (h : ops.foldlM DevNums.run {} = .ok d) (ho : FnIds ops) (f : DevFn) :
    match d.append f with
    | .ok d' => ∃ k, LowestFree (HasFn d) 0 7 k ∧ ∀ j, HasFn d' j ↔ HasFn d j ∨ j = k
    | .error _ => Full (HasFn d) 0 7 := by
  have hi := DevNums.inv_all ops DevNums.inv_empty ho h
  have hs := DevNums.nextFree_spec hi
  cases hk : DevNums.nextFree d.fns with
  | none => rw [hk] at hs; rw [DevNums.append_none f hk]; exact hs
  | some k =>
    rw [hk] at hs
    obtain ⟨d', h1, -, h2⟩ := DevNums.append_some f hi hk
    rw [h1]
    exact ⟨k, hs, h2⟩

/-- `add_function` is rejected if the function number is in use, and adds the function under its number otherwise. -/
theorem C38_add_function (d : DevNums) (f : DevFn) :
    match d.add f with
    | .ok d' => ¬ HasFn d f.id.function ∧ ∀ j, HasFn d' j ↔ HasFn d j ∨ j = f.id.function
    | .error _ => HasFn d f.id.function := by
  by_cases hu : HasFn d f.id.function
  · rw [DevNums.add_used hu]; exact hu
  · obtain ⟨d', h1, -, h2, -⟩ := DevNums.add_new hu
    rw [h1]
    refine ⟨hu, fun j => ?_⟩
    have hp : (d'.fns.map (·.id.function)).Perm (d.fns.map (·.id.function) ++ [f.id.function]) := by
      have := h2.map PcieId.function
      simpa [List.map_map, Function.comp_def] using this
    have := hp.mem_iff (a := j)
    simp only [List.mem_map, List.mem_append, List.mem_singleton] at this
    exact this

/-- The bus number of a device is that of all its functions after it has changed. -/
theorem C38_bus {d d' : DevNums} {v : Nat} (h : d.setBus v = .ok d') (hd : ∀ f ∈ d.fns, f.id.bus = d.bus) :
    d'.bus = v ∧ (∀ f ∈ d'.fns, f.id.bus = v) ∧ d'.fns.map (·.id.function) = d.fns.map (·.id.function) := by
  simp only [DevNums.setBus] at h
  split at h
  · cases h
  · cases h
    split
    · refine ⟨rfl, ?_, ?_⟩
      · intro f hf
        obtain ⟨g, -, rfl⟩ := List.mem_map.mp hf
        rfl
      · simp [List.map_map, Function.comp_def]
    · rename_i hv
      have hv : d.bus = v := by simpa using hv
      exact ⟨hv, fun f hf => by rw [hd f hf, hv], rfl⟩

/-- A port of a switch or root complex that is added without a number gets the lowest free device number from 1, and this
fails only if all numbers up to 31 are in use. This holds for any mixture of ports with and without given numbers. -/
theorem C38_add_port {ops : List PortCall} {s : PortNums} (h : ops.foldlM PortNums.run {} = .ok s) (ho : PortIds ops) :
    match s.add with
    | .ok s' => ∃ k, LowestFree (HasPort s) 1 31 k ∧ ∀ j, HasPort s' j ↔ HasPort s j ∨ j = k
    | .error _ => Full (HasPort s) 1 31 := by
  have hi := PortNums.inv_all ops PortNums.inv_empty ho h
  have hs := PortNums.nextFree_spec hi.min hi.le
  cases hk : s.nextFree with
  | none => rw [hk] at hs; simp only [PortNums.add, hk]; exact hs
  | some k =>
    rw [hk] at hs
    obtain ⟨s', h1, -, -, h2⟩ := PortNums.add_some hk
    rw [h1]
    exact ⟨k, hs, h2⟩

/-- The device numbers of the ports are distinct, if each number that is given explicitly is not in use at that time.
Missing (and false, see below): the rejection of numbers in use. -/
theorem C38_ports_partial {ops : List PortCall} {s : PortNums} (h : ops.foldlM PortNums.run {} = .ok s) (ho : PortIds ops)
    (hn : ∀ pre e post t, ops = pre ++ PortCall.append e :: post → pre.foldlM PortNums.run {} = .ok t → ¬ HasPort t e.device) :
    (s.eps.map (·.device)).Nodup := by
  suffices key : ∀ (pre rest : List PortCall) (t : PortNums), ops = pre ++ rest → pre.foldlM PortNums.run {} = .ok t →
      (t.eps.map (·.device)).Nodup from key ops [] s (by simp) h
  intro pre
  induction pre using List.reverseRec with
  | nil => intro rest t _ ht; cases ht; exact List.nodup_nil
  | append_singleton pre op ih =>
    intro rest t hops ht
    rw [List.foldlM_append] at ht
    cases h1 : pre.foldlM PortNums.run {} with
    | error e => rw [h1] at ht; cases ht
    | ok u =>
      rw [h1] at ht
      have hu := ih (op :: rest) u (by rw [hops]; simp) h1
      have hi := PortNums.inv_all pre PortNums.inv_empty (fun e he => ho e (by rw [hops]; simp [he])) h1
      have ht' : u.run op = .ok t := by
        cases hx : u.run op with
        | error e => simp only [List.foldlM_cons, ok_bind, hx, error_bind] at ht; cases ht
        | ok w => simp only [List.foldlM_cons, List.foldlM_nil, ok_bind, hx] at ht; exact ht
      cases op with
      | add =>
        have hs := PortNums.nextFree_spec hi.min hi.le
        cases hk : u.nextFree with
        | none => simp only [PortNums.run, PortNums.add, hk] at ht'; cases ht'
        | some k =>
          rw [hk] at hs
          obtain ⟨w, h2, -, h3, -⟩ := PortNums.add_some hk
          simp only [PortNums.run] at ht'
          rw [h2] at ht'; cases ht'
          exact PortNums.nodup_snoc h3 hu hs.2.2.1
      | append e =>
        cases ht'
        exact PortNums.nodup_snoc (PortNums.append_perm u e) hu (hn pre e rest u (by rw [hops]; simp) h1)

/-- A port can be given a number that is in use: two ports then have the same device number. -/
theorem C38_violated : ∃ s, [PortCall.add, .append ⟨0, 1, 0⟩].foldlM PortNums.run {} = .ok s ∧ ¬ (s.eps.map (·.device)).Nodup :=
  ⟨{ eps := [⟨0, 1, 0⟩, ⟨0, 1, 0⟩] }, by rfl, by decide⟩

/- The hypotheses can be met: a device with functions 0, 1, 3 (given explicitly); the next one is 2. -/
example : ([DevCall.add { id := ⟨0, 0, 3⟩ }, .make, .append {}, .setBus 5, .append {}].foldlM DevNums.run {}).toOption.map
    (fun d => d.fns.map (·.id)) = some [⟨5, 0, 0⟩, ⟨5, 0, 1⟩, ⟨5, 0, 2⟩, ⟨5, 0, 3⟩] := by decide +kernel
example : FnIds [.add { id := ⟨0, 0, 3⟩ }, .make, .append {}, .setBus 5] := by intro f; simp; rintro rfl; decide
example : ([PortCall.add, .append ⟨0, 3, 0⟩, .add, .add].foldlM PortNums.run {}).toOption.map
    (fun d => d.eps.map (·.device)) = some [1, 2, 3, 4] := by decide +kernel
example : ((List.replicate 9 DevCall.make).foldlM DevNums.run {}).toOption = none := by decide +kernel
example : ((List.replicate 8 DevCall.make).foldlM DevNums.run {}).toOption.isSome := by decide +kernel

end Pcie
