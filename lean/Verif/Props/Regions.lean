/- C57: the regions of a memory endpoint. -/
import Verif.Lemmas.Regions
import Verif.Spec.Enum
namespace Pcie
open Spec

/-- C57: after any sequence of calls of `add_region` (and of `add_io_region`, `add_mem_region`,
`add_prefetchable_mem_region`) on a new endpoint: the six base address registers stand for exactly one window for each call
that succeeded, of the kind asked for and of the least possible size that holds the region, which the host can size and
assign (C29 to C31); the BAR is prefetchable if that was asked for; behind it is a zeroed memory of the size asked for;
no other region has memory. -/
theorem C57_regions (cs : List AddCall) (hc : ∀ c ∈ cs, c.Ok) :
    let e := cs.foldl AddCall.after {}
    ∃ ws, (∀ {σ : Type} (f : Common σ), f.bars = e.bars → f.romMask = 0 → f.romAddr = 0 → FnRes 6 f ws none) ∧
      (∀ w, w ∈ ws ↔ ∃ i c, (i, c) ∈ granted 0 cs ∧ IsWindowOf w i c) ∧
      (∀ i c, (i, c) ∈ granted 0 cs → (e.bars.getD i {}).val.testBit 3 = (c.prefetch && !c.io) ∧
        e.regions[i]? = some (some ⟨c.size, fun _ => 0⟩)) ∧
      ∀ i, i < 6 → (∀ c, (i, c) ∉ granted 0 cs) → e.regions[i]? = some none := by
  have h := regionsAre_all hc
  obtain ⟨ws, h1, h2⟩ := h.lay
  refine ⟨ws, fun f hb h3 h4 => ⟨by rw [hb]; exact h1, by rw [hb]; exact h.len, h3, h4⟩, h2, fun i c hic => ⟨h.pref i c hic, h.mem i c hic⟩, h.rest⟩

/-- C57: `add_io_region`, `add_mem_region` and `add_prefetchable_mem_region` are the calls the other theorems speak of: an I/O region, a 32-bit region that
is not prefetchable, and a 64-bit region that is. -/
theorem C57_calls (e : MemEp) (n : Nat) :
    e.addIoRegion n = AddCall.run { size := n, ext := false, prefetch := false, io := true } e ∧
    e.addMemRegion n = AddCall.run { size := n, ext := false, prefetch := false, io := false } e ∧
    e.addPrefetchableMemRegion n = AddCall.run { size := n, ext := true, prefetch := true, io := false } e :=
  ⟨rfl, rfl, rfl⟩

/-- C57: a call raises an exception exactly if fewer registers are left than it needs. -/
theorem C57_raises (cs : List AddCall) (hc : ∀ c ∈ cs, c.Ok) (c : AddCall) (hk : c.Ok) :
    (∃ msg, c.run (cs.foldl AddCall.after {}) = .error msg) ↔ 6 < registersUsed 0 cs + c.width := by
  have h := regionsAre_all hc
  constructor
  · rintro ⟨msg, he⟩
    refine Classical.byContradiction fun hn => ?_
    obtain ⟨e', h1, -⟩ := addRegion_ok h c hk (by omega)
    rw [h1] at he
    cases he
  · exact fun hw => ⟨_, addRegion_error h c hw⟩

/-- C57: the registers of different regions are different registers, and all are among the six. -/
theorem C57_apart (cs : List AddCall) :
    (granted 0 cs).Pairwise (fun a b => a.1 + a.2.width ≤ b.1) ∧ ∀ x ∈ granted 0 cs, x.1 + x.2.width ≤ 6 := by
  refine ⟨?_, fun x hx => (granted_bound hx).2⟩
  generalize 0 = used
  induction cs generalizing used with
  | nil => exact .nil
  | cons c cs ih =>
    rw [granted]
    split
    · exact List.pairwise_cons.2 ⟨fun x hx => (granted_bound hx).1, ih _⟩
    · exact ih _

/-- C57: the memory of a region fits into its window, and is more than half of it unless the window has the least size. -/
theorem C57_fits (w : Window) (i : Nat) (c : AddCall) (h : IsWindowOf w i c) :
    c.size ≤ 2 ^ w.k ∧ (w.k = (if c.io then 2 else 4) ∨ 2 ^ w.k < 2 * c.size) := by
  obtain ⟨-, -, -, -, h1, h2, h3⟩ := h
  refine ⟨h1, ?_⟩
  by_cases hk : w.k = if c.io then 2 else 4
  · exact .inl hk
  · refine .inr (Nat.lt_of_not_le fun hle => ?_)
    have hpos : 0 < w.k := by split at h2 <;> omega
    obtain ⟨j, hj⟩ : ∃ j, w.k = j + 1 := ⟨w.k - 1, by omega⟩
    rw [hj, Nat.pow_succ] at hle
    have := h3 j (by omega) (by omega)
    omega

/-! 4 KiB of memory, 5000 bytes of prefetchable memory, 100 bytes of I/O, 1 MiB of prefetchable memory (which fails, since one
register is left after the next), 16 bytes of memory. -/

def exCalls : List AddCall :=
  [⟨4096, false, false, false⟩, ⟨5000, true, true, false⟩, ⟨100, false, false, true⟩, ⟨64, false, false, false⟩, ⟨1048576, true, true, false⟩,
    ⟨16, false, false, false⟩]

example : (∀ c ∈ exCalls, c.Ok) ∧ (granted 0 exCalls).map (fun x => (x.1, x.2.size)) = [(0, 4096), (1, 5000), (3, 100), (4, 64), (5, 16)] ∧
    (exCalls.foldl AddCall.after {}).bars =
      [⟨0, 0xfffff000⟩, ⟨12, 0xffffe000⟩, ⟨0, 0xffffffff⟩, ⟨1, 0xffffff80⟩, ⟨0, 0xffffffc0⟩, ⟨0, 0xfffffff0⟩] := by
  refine ⟨?_, by decide, by decide +kernel⟩
  intro c hc
  simp only [exCalls, List.mem_cons, List.not_mem_nil, or_false] at hc
  rcases hc with rfl | rfl | rfl | rfl | rfl | rfl <;> exact ⟨by decide, by decide⟩

end Pcie
