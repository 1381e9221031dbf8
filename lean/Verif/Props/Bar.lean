/-
C28: base address register decoding.
-/
import Verif.Lemmas.Bar
import Verif.Spec.Memory
namespace Pcie
open Spec

/-- C28 (part): `match_bar` finds exactly the configured window that contains the address and the offset into it.
Missing from the full statement: 64-bit BARs of 4 GiB and above (`C28_large_bar_violated`), addresses above 4 GiB
on a function with 32-bit BARs (`C28_alias_violated`) and the enable bits (see `C28_disabled_violated`). -/
theorem C28_decode_partial (bars : List BarReg) (ws : List Window) (io : Bool) (addr : Nat)
    (h : Layout 0 bars ws) (hk : ∀ w ∈ ws, w.k < 32) (ha : addr < 2 ^ 64)
    (hw : addr < 2 ^ 32 ∨ ∀ w ∈ ws, w.wide = true) :
    matchBar bars addr io =
      .ok ((ws.find? (fun w => w.io == io && w.contains addr)).map fun w => (w.idx, addr - w.base)) :=
  matchBarFrom_layout io addr 0 bars ws h hk ha hw

/-- A function with a 4 KiB prefetchable 64-bit BAR at 0x1_2000_0000, a 16-byte 32-bit BAR, and a 256-byte I/O BAR. -/
def exBars : List BarReg :=
  [⟨0x2000000c, 0xfffff000⟩, ⟨1, 0xffffffff⟩, {}, ⟨0x80000010, 0xfffffff0⟩, ⟨0xc001, 0xffffff00⟩, {}]

def exWindows : List Window :=
  [⟨0, false, true, 0x120000000, 12⟩, ⟨3, false, false, 0x80000010, 4⟩, ⟨4, true, false, 0xc000, 8⟩]

theorem exLayout : Layout 0 exBars exWindows := by
  refine .mem64 _ _ _ _ _ _ _ (by decide) (.absent _ _ _ _ rfl (.mem32 _ _ _ _ _ _ (by decide)
    (.io _ _ _ _ _ _ (by decide) (.absent _ _ _ _ rfl (.nil _)))))

example : matchBar exBars 0xc0fe true = .ok (some (4, 0xfe)) := by
  rw [C28_decode_partial exBars exWindows true 0xc0fe exLayout (by decide) (by decide) (Or.inl (by decide))]
  rfl

/-- C28: when the windows of a kind do not overlap, every address of a memory window is claimed by its BAR. -/
theorem C28_claims_mem (bars : List BarReg) (ws : List Window) (w : Window) (h : Layout 0 bars ws)
    (hk : ∀ w ∈ ws, w.k < 32) (hin : w ∈ ws) (hio : w.io = false)
    (hwide : w.base + 2 ^ w.k ≤ 2 ^ 32 ∨ ∀ w ∈ ws, w.wide = true) (hb : w.base + 2 ^ w.k ≤ 2 ^ 64)
    (hdis : ∀ v ∈ ws, v.io = false → v ≠ w → v.base + 2 ^ v.k ≤ w.base ∨ w.base + 2 ^ w.k ≤ v.base) :
    ClaimsMem bars w.idx w.base w.k := by
  intro a ha1 ha2
  rw [C28_decode_partial bars ws false a h hk (by omega) (by
    rcases hwide with h | h
    · exact Or.inl (by omega)
    · exact Or.inr h)]
  have : ws.find? (fun w => w.io == false && w.contains a) = some w := by
    cases hf : ws.find? (fun w => w.io == false && w.contains a) with
    | none =>
      have := List.find?_eq_none.1 hf w hin
      simp [hio, Window.contains, ha1, ha2] at this
    | some v =>
      have h1 := List.find?_some hf
      have h2 := List.mem_of_find?_eq_some hf
      simp only [Bool.and_eq_true, beq_iff_eq, Window.contains, decide_eq_true_eq] at h1
      by_cases hv : v = w
      · rw [hv]
      · have := hdis v h2 h1.1 hv; omega
  rw [this]; rfl

/-- C28: likewise for I/O windows. -/
theorem C28_claims_io (bars : List BarReg) (ws : List Window) (w : Window) (h : Layout 0 bars ws)
    (hk : ∀ w ∈ ws, w.k < 32) (hin : w ∈ ws) (hio : w.io = true) (hb : w.base + 2 ^ w.k ≤ 2 ^ 32)
    (hdis : ∀ v ∈ ws, v.io = true → v ≠ w → v.base + 2 ^ v.k ≤ w.base ∨ w.base + 2 ^ w.k ≤ v.base) :
    ClaimsIo bars w.idx w.base w.k := by
  intro a ha1 ha2
  rw [C28_decode_partial bars ws true a h hk (by omega) (Or.inl (by omega))]
  have : ws.find? (fun w => w.io == true && w.contains a) = some w := by
    cases hf : ws.find? (fun w => w.io == true && w.contains a) with
    | none =>
      have := List.find?_eq_none.1 hf w hin
      simp [hio, Window.contains, ha1, ha2] at this
    | some v =>
      have h1 := List.find?_some hf
      have h2 := List.mem_of_find?_eq_some hf
      simp only [Bool.and_eq_true, beq_iff_eq, Window.contains, decide_eq_true_eq] at h1
      by_cases hv : v = w
      · rw [hv]
      · have := hdis v h2 h1.1 hv; omega
  rw [this]; rfl

/-- C28: programming a BAR with an aligned address moves its window there, and nothing else changes. A 64-bit BAR is
programmed by two register writes. -/
theorem C28_program (bars : List BarReg) (ws : List Window) (w : Window) (base : Nat) (h : Layout 0 bars ws)
    (hin : w ∈ ws) (hal : base % 2 ^ w.k = 0) (hb : base < if w.wide then 2 ^ 64 else 2 ^ 32) :
    Layout 0 (if w.wide then writeBar (writeBar bars w.idx (base % 2 ^ 32) 0xf) (w.idx + 1) (base / 2 ^ 32) 0xf
        else writeBar bars w.idx base 0xf)
      (ws.map fun v => if v.idx = w.idx then { v with base := base } else v) := by
  have := program_layout 0 bars ws w base h hin hal hb
  simpa [programBar] using this

/-- C28: configuring an unused register (two registers for a 64-bit BAR) adds one window, at address 0, of the least
power of two that holds `size` bytes and is allowed for the kind of BAR. -/
theorem C28_configure (bars : List BarReg) (ws : List Window) (idx size k : Nat) (ext prefetch io : Bool)
    (h : Layout 0 bars ws) (hs : SizeExp size (if io then 2 else 4) k) (hk : k < if ext then 64 else 32)
    (hio : io = true → ext = false)
    (hfree : idx < bars.length ∧ Unused ws idx) (hfree2 : ext = true → idx + 1 < bars.length ∧ Unused ws (idx + 1)) :
    ∃ bars' ws', configureBar bars idx size ext prefetch io = .ok bars' ∧ Layout 0 bars' ws' ∧
      ∀ v, v ∈ ws' ↔ v ∈ ws ∨ v = ⟨idx, io, ext, 0, k⟩ := by
  exact configure_layout bars ws idx size k ext prefetch io h hs hk hio hfree hfree2

example : (configureBar (List.replicate 6 {}) 2 5000 true false false).toOption =
    some [{}, {}, ⟨4, 0xffffe000⟩, ⟨0, 0xffffffff⟩, {}, {}] := by decide +kernel

/-- C28: configuring a BAR that is not there raises. -/
theorem C28_configure_range (bars : List BarReg) (idx size : Nat) (ext prefetch io : Bool)
    (h : bars.length ≤ idx ∨ (ext = true ∧ bars.length ≤ idx + 1)) :
    ∃ e, configureBar bars idx size ext prefetch io = .error e := by
  refine ⟨"BAR index out of range", ?_⟩
  unfold configureBar
  exact if_pos (by rcases h with h | h; exact Or.inl h; exact Or.inr h)

/-- C28 fails: a 64-bit BAR of 4 GiB is never matched. -/
theorem C28_large_bar_violated :
    ∃ bars ws, Layout 0 bars ws ∧ (configureBar (List.replicate 6 {}) 0 (2 ^ 32) true true false).toOption.map
        (fun b => writeBar (writeBar b 0 0 0xf) 1 4 0xf) = some bars ∧
      (⟨0, false, true, 0x400000000, 32⟩ : Window) ∈ ws ∧ (matchBar bars 0x400000000).toOption = some none :=
  ⟨[⟨12, 0⟩, ⟨4, 0xffffffff⟩, {}, {}, {}, {}], [⟨0, false, true, 0x400000000, 32⟩],
    .mem64 _ _ _ _ _ _ _ (by decide) (.absent _ _ _ _ rfl (.absent _ _ _ _ rfl (.absent _ _ _ _ rfl
      (.absent _ _ _ _ rfl (.nil _))))),
    by decide +kernel, by decide, by decide +kernel⟩

/-- C28 fails: a 32-bit BAR also claims addresses above 4 GiB, with an offset beyond its size. -/
theorem C28_alias_violated :
    ∃ bars w, Layout 0 bars [w] ∧ w.contains 0x180000010 = false ∧
      (matchBar bars 0x180000010).toOption = some (some (w.idx, 0x100000010)) :=
  ⟨[⟨0x80000000, 0xfffff000⟩], ⟨0, false, false, 0x80000000, 12⟩,
    .mem32 _ _ _ _ _ _ (by decide) (.nil _), by decide, by decide +kernel⟩

example : ClaimsMem exBars 3 0x80000010 4 :=
  C28_claims_mem exBars exWindows ⟨3, false, false, 0x80000010, 4⟩ exLayout (by decide) (by decide) rfl
    (Or.inl (by decide)) (by decide) (by decide)

example : ClaimsIo exBars 4 0xc000 8 :=
  C28_claims_io exBars exWindows ⟨4, true, false, 0xc000, 8⟩ exLayout (by decide) (by decide) rfl (by decide) (by decide)

end Pcie
