/-
Enumeration: BAR sizing (C29), BAR assignment (C30) and bridge windows (C31).
-/
import Verif.Lemmas.EnumClean
import Verif.Props.Bar
namespace Pcie
open Spec

section
variable {σ : Type} (ops : CapOps σ)

/-- What sizing must find: for every window its size, and a raw value from which its kind and width can be read; nothing
for registers that belong to no window; the size of the expansion ROM. -/
structure Found {σ} (f : Common σ) (ws : List Window) (r : Option (Nat × Nat)) (d : DevBars) : Prop where
  size : ∀ w ∈ ws, ∃ raw, d.info w.idx = some ⟨raw, 2 ^ w.k⟩ ∧ raw % 2 ^ 32 = (f.bars.getD w.idx {}).val ∧
    (raw.testBit 0 = w.io) ∧ (w.io = false → raw.testBit 2 = w.wide)
  absent : ∀ j < f.bars.length, Unused ws j → d.info j = some ⟨0, 0⟩
  rom : ∃ raw, d.rom = some ⟨raw, match r with | none => 0 | some (_, k) => 2 ^ k⟩

theorem found_of_probed {σ} (f : Common σ) (ws : List Window) (r : Option (Nat × Nat)) (d d' : DevBars) (bars' : List BarReg)
    (hl : Layout 0 f.bars ws) (h : Probed 0 f.bars bars' ws d d') :
    Found f ws r { d' with rom := some (romInfo f.romEnable r) } := by
  refine ⟨?_, ?_, ?_⟩
  · intro w hw
    obtain ⟨raw, h1, h2⟩ := h.info w hw
    rw [Nat.sub_zero] at h2
    obtain ⟨k1, k2, -⟩ := layout_kind 0 _ _ hl w hw
    rw [Nat.sub_zero] at k1 k2
    refine ⟨raw, h1, h2, ?_, ?_⟩
    · rw [Nat.testBit_zero]
      cases hio : w.io <;> rw [hio] at k1 <;> simp only [Bool.toNat_true, Bool.toNat_false] at k1 <;>
        simp only [decide_eq_true_eq, decide_eq_false_iff_not] <;> omega
    · intro hio
      have := k2 hio
      rw [Nat.testBit_eq_decide_div_mod_eq]
      cases hw : w.wide <;> rw [hw] at this <;> simp only [Bool.toNat_true, Bool.toNat_false] at this <;>
        simp only [decide_eq_true_eq, decide_eq_false_iff_not] <;> omega
  · intro j hj hu
    have := h.absent j hj (by rwa [Nat.zero_add])
    rwa [Nat.zero_add] at this
  · cases r with
    | none => exact ⟨0, rfl⟩
    | some p => exact ⟨_, rfl⟩

/-- C29 (part): sizing the BARs of an endpoint finds kind, width and size of each of its BARs and of its ROM, reports the
other registers as absent, and leaves all registers but those of the upper halves of 64-bit BARs (and the decode enables,
which it clears) as they were. Missing: the upper halves are not restored (`C29_restore_violated`). -/
theorem C29_endpoint_partial (f : Ep σ) (d : DevBars) (ws : List Window) (r : Option (Nat × Nat))
    (hf : FnRes 6 f.toCommon ws r) :
    ∃ bars' d', readBars (Ep.regs ops) 6 12 f d = .ok ({ f with bars := bars', ioEnable := false, memEnable := false }, d') ∧
      Found f.toCommon ws r d' ∧ bars'.length = 6 ∧
      ∀ j, (∀ w ∈ ws, w.wide = true → w.idx + 1 ≠ j) → bars'[j]? = f.bars[j]? := by
  obtain ⟨bars', d', e, hp⟩ := readBars_spec (Ep.hdr ops) f d ws r hf.lay hf.len hf.rom
  exact ⟨bars', _, e, found_of_probed _ _ _ _ _ _ hf.lay hp, by rw [hp.len]; exact hf.len,
    fun j hj => hp.same j (fun w hw hwide => by rw [Nat.zero_add]; exact hj w hw hwide)⟩

/-- C29 (part): the same for a bridge. -/
theorem C29_bridge_partial (f : Br σ) (d : DevBars) (ws : List Window) (r : Option (Nat × Nat))
    (hf : FnRes 2 f.toCommon ws r) :
    ∃ bars' d', readBars (Br.regs ops) 2 14 f d = .ok ({ f with bars := bars', ioEnable := false, memEnable := false }, d') ∧
      Found f.toCommon ws r d' ∧ bars'.length = 2 ∧
      ∀ j, (∀ w ∈ ws, w.wide = true → w.idx + 1 ≠ j) → bars'[j]? = f.bars[j]? := by
  obtain ⟨bars', d', e, hp⟩ := readBars_spec (Br.hdr ops) f d ws r hf.lay hf.len hf.rom
  exact ⟨bars', _, e, found_of_probed _ _ _ _ _ _ hf.lay hp, by rw [hp.len]; exact hf.len,
    fun j hj => hp.same j (fun w hw hwide => by rw [Nat.zero_add]; exact hj w hw hwide)⟩

/-- C29: if no BAR is a 64-bit BAR, sizing leaves everything but the decode enables as it was. -/
theorem C29_restore_32bit (f : Ep σ) (d : DevBars) (ws : List Window) (r : Option (Nat × Nat))
    (hf : FnRes 6 f.toCommon ws r) (h32 : ∀ w ∈ ws, w.wide = false) :
    ∃ d', readBars (Ep.regs ops) 6 12 f d = .ok ({ f with ioEnable := false, memEnable := false }, d') ∧
      Found f.toCommon ws r d' := by
  obtain ⟨bars', d', e, hF, hlen, hsame⟩ := C29_endpoint_partial ops f d ws r hf
  have : bars' = f.bars := List.ext_getElem? (fun j => hsame j (fun w hw hwide => by rw [h32 w hw] at hwide; cases hwide))
  rw [this] at e
  exact ⟨d', e, hF⟩

/-- C29: sizing never fails, whatever the tree of functions. -/
theorem C29_total (b : Bus σ) (rs : List Region) (h : Tree Any b rs) : ∃ b', readBus ops b = .ok b' := by
  obtain ⟨b', _, e, _⟩ := readBus_spec ops b rs h
  exact ⟨b', e⟩

end

/-- Functions without capabilities. -/
def noCaps : CapOps Unit := ⟨fun _ _ => 0, fun s _ _ _ => s⟩

/-- The endpoint with the BARs of `exBars` and a 2 KiB expansion ROM. -/
def exEp : Ep Unit := { caps := (), bars := exBars, romMask := 0xfffff800, romAddr := 0x1000 }

theorem exEp_res : FnRes 6 exEp.toCommon exWindows (some (0x1000, 11)) := ⟨exLayout, rfl, by
  refine ⟨by decide, by decide, by decide, by decide, by decide, rfl⟩⟩

example : ∃ bars' d', readBars (Ep.regs noCaps) 6 12 exEp {} =
      .ok ({ exEp with bars := bars', ioEnable := false, memEnable := false }, d') ∧
      d'.info 3 = some ⟨0x80000010, 16⟩ ∧ (d'.info 0).map BarInfo.size = some 4096 ∧ d'.info 2 = some ⟨0, 0⟩ := by
  obtain ⟨b, d, e, h, -⟩ := C29_endpoint_partial noCaps exEp {} exWindows _ exEp_res
  have e1 : (readBars (Ep.regs noCaps) 6 12 exEp {}).toOption.map (fun p => p.2.info 3) = some (some ⟨0x80000010, 16⟩) := by
    decide +kernel
  rw [e] at e1
  obtain ⟨raw, h0, -⟩ := h.size ⟨0, false, true, 0x120000000, 12⟩ (by simp [exWindows])
  exact ⟨b, d, e, Option.some.inj e1, by rw [h0]; rfl, h.absent 2 (by decide) (by unfold Unused; decide)⟩

/-- C29 (violated): sizing does not leave the contents of the BARs as they were: the upper half of a 64-bit BAR gets the
value of the lower half (pci.py:1104 reads `orig_bar2` from the wrong register). The BAR at 0x1_2000_0000 is at
0x2000_000c_2000_0000 afterwards. -/
theorem C29_restore_violated : ∃ (f : Ep Unit) (ws : List Window) (r : Option (Nat × Nat)), FnRes 6 f.toCommon ws r ∧
    (readBars (Ep.regs noCaps) 6 12 f {}).toOption.map (fun p => p.1.bars.map BarReg.val) ≠ some (f.bars.map BarReg.val) ∧
    (readBars (Ep.regs noCaps) 6 12 f {}).toOption.map (fun p => (p.1.bars.map BarReg.val).take 2) =
      some [0x2000000c, 0x2000000c] :=
  ⟨exEp, exWindows, _, exEp_res, by decide +kernel, by decide +kernel⟩

section
variable {σ : Type} (ops : CapOps σ)

/-- C30: after sizing and assignment over a whole tree of buses, the BARs and ROMs have the kinds and sizes they had, every
one is at an address that is a multiple of its size and inside the range allocated from, no two of the same kind overlap,
and the host has recorded the addresses that are in the registers. The range must not end above 2^64. -/
theorem C30_assignment (b b1 b2 : Bus σ) (rs : List Region) (l l' : Limits) (ht : Tree Any b rs)
    (hr : readBus ops b = .ok b1) (ha : assignBus ops b1 l = .ok (b2, l')) (hl : l'.mem ≤ 2 ^ 64 ∧ l'.pref ≤ 2 ^ 64) :
    ∃ rs', Tree Recorded b2 rs' ∧ shape rs' = shape rs ∧ (∀ x ∈ rs', x.size ∣ x.base) ∧
      (∀ x ∈ rs', lim l x.pool ≤ x.base ∧ x.base + x.size ≤ lim l' x.pool) ∧ rs'.Pairwise Apart := by
  obtain ⟨b', rs1, e, t1, s1, -⟩ := readBus_spec ops b rs ht
  rw [hr] at e
  obtain rfl := Except.ok.inj e
  obtain ⟨rs', t, q, s⟩ := assignBus_spec ops b1 rs1 t1 l b2 l' ha hl
  exact ⟨rs', t, s.trans s1, tree_aligned t, q.within, q.pairwise⟩

/-- C30: memory BARs of different kinds do not overlap either, if the memory range ends below the prefetchable range. -/
theorem C30_memory_disjoint (b b1 b2 : Bus σ) (rs : List Region) (l l' : Limits) (ht : Tree Any b rs)
    (hr : readBus ops b = .ok b1) (ha : assignBus ops b1 l = .ok (b2, l')) (hl : l'.mem ≤ l.pref ∧ l'.pref ≤ 2 ^ 64) :
    ∃ rs', Tree Recorded b2 rs' ∧ rs'.Pairwise fun x y => ∀ io a, Has x io a → ¬ Has y io a := by
  have hle := assignBus_le ops _ _ _ _ ha
  obtain ⟨rs', t, -, -, hw, hp⟩ := C30_assignment ops b b1 b2 rs l l' ht hr ha
    ⟨by have := hle.2.2; omega, hl.2⟩
  refine ⟨rs', t, ?_⟩
  refine List.Pairwise.imp_of_mem (fun {x y} hx hy hxy io a h1 h2 => ?_) hp
  obtain ⟨a1, a2, a3⟩ := h1
  obtain ⟨b1, b2, b3⟩ := h2
  have w1 := hw x hx
  have w2 := hw y hy
  rcases hxy with h | h | h
  · cases hp1 : x.pool <;> cases hp2 : y.pool <;> rw [hp1] at a1 w1 h <;> rw [hp2] at b1 w2 h <;>
      simp only [lim] at w1 w2 <;> cases io <;> simp at a1 b1 h <;> omega
  · omega
  · omega

end

/-- A root bus with an endpoint with the BARs of `exBars`, a bridge with the same endpoint behind it, and another. -/
def exBus : Bus Unit :=
  .br { caps := (), bars := [{}, {}] } {} (.ep exEp {} .nil) (.br { caps := (), bars := [{}, {}] } {} .nil (.ep exEp {} .nil))

theorem exBr_res : FnRes 2 ({ caps := (), bars := [{}, {}] } : Br Unit).toCommon [] none :=
  ⟨.absent _ _ _ _ rfl (.absent _ _ _ _ rfl (.nil _)), rfl, rfl, rfl⟩

def exRegions : List Region := fnRegions exEp.toCommon exWindows (some (0x1000, 11))

theorem exBus_tree : Tree Any exBus (exRegions ++ exRegions) := by
  have := Tree.br (P := Any) (σ := Unit) { caps := (), bars := [{}, {}] } {} [] none _ _ _ _ exBr_res trivial
    (.ep exEp {} exWindows _ _ _ exEp_res trivial .nil)
    (.br { caps := (), bars := [{}, {}] } {} [] none _ _ _ _ exBr_res trivial .nil
      (.ep exEp {} exWindows _ _ _ exEp_res trivial .nil))
  simpa [exBus, exRegions, fnRegions, barRegions, romRegions] using this

def runBus (b : Bus Unit) (l : Limits) : Py (Bus Unit × Limits) := do
  let b ← readBus noCaps b
  assignBus noCaps b l

example : (runBus exBus hostLimits).toOption.map Prod.snd = some ⟨0x80001100, 0xc0101000, 0x8000000000101000⟩ := by
  decide +kernel

/-- C30 (violated without the bound): the second of two prefetchable BARs of 2^63 bytes is assigned the address 2^64, which
is silently truncated: both halves of the register are 0 (plus the flags). -/
theorem C30_overflow_violated :
    let bars : List BarReg := [⟨0xc, 0⟩, ⟨0, 0x80000000⟩, ⟨0xc, 0⟩, ⟨0, 0x80000000⟩, {}, {}]
    let b : Bus Unit := .ep { caps := (), bars := bars } {} .nil
    Tree Any b (fnRegions ({ caps := (), bars := bars } : Ep Unit).toCommon [⟨0, false, true, 0, 63⟩, ⟨2, false, true, 0, 63⟩] none ++ []) ∧
    (runBus b hostLimits).toOption.map (fun p => match p.1 with
      | .ep f d _ => (f.bars.map BarReg.val, d.addr 2) | _ => ([], none)) =
        some ([0xc, 0x80000000, 0xc, 0, 0, 0], some (2 ^ 64)) := by
  refine ⟨.ep _ _ _ _ _ _ ⟨?_, rfl, rfl, rfl⟩ trivial .nil, by decide +kernel⟩
  exact .mem64 _ _ _ _ _ _ _ (by decide) (.mem64 _ _ _ _ _ _ _ (by decide) (.absent _ _ _ _ rfl (.absent _ _ _ _ rfl (.nil _))))

section
variable {σ : Type} (ops : CapOps σ)

/-- C31 (part): after sizing and assignment, for every bridge of the tree: its windows contain all BARs and ROMs behind it,
the windows of the bridges directly behind it are inside its windows, and its windows do not overlap the windows of another
bridge on the same bus. The non-prefetchable range has to stay below 4 GiB and the prefetchable range above. Missing: the
windows may overlap BARs of other functions on the same bus (`C31_sibling_bar_violated`). -/
theorem C31_windows_partial (b b1 b2 : Bus σ) (rs : List Region) (l l' : Limits) (ht : Tree Any b rs) (hc : BrsClean b)
    (hr : readBus ops b = .ok b1) (ha : assignBus ops b1 l = .ok (b2, l'))
    (h0 : 0 < l.io ∧ 0 < l.mem ∧ 2 ^ 32 ≤ l.pref) (hl : l'.mem < 2 ^ 32 ∧ l'.pref ≤ 2 ^ 64) :
    ∃ own brs all, Mapped False b2 own brs all := by
  obtain ⟨b', rs1, e, t1, s1, hc1, -⟩ := readBus_spec ops b rs ht
  rw [hr] at e
  obtain rfl := Except.ok.inj e
  obtain ⟨own, brs, all, m, -⟩ := assignBus_mapped ops False b1 rs1 t1 l b2 l' ha h0 hl (hc1 hc) (fun h => h.elim)
  exact ⟨own, brs, all, m⟩

/-- C31: if bridges have no BARs of their own and the functions that come before a bridge on its bus have none, the windows
do not overlap BARs of functions on the same bus either. -/
theorem C31_windows (b b1 b2 : Bus σ) (rs : List Region) (l l' : Limits) (ht : Tree Any b rs) (hc : BrsClean b)
    (hb : BridgesFirst b) (hr : readBus ops b = .ok b1) (ha : assignBus ops b1 l = .ok (b2, l'))
    (h0 : 0 < l.io ∧ 0 < l.mem ∧ 2 ^ 32 ≤ l.pref) (hl : l'.mem < 2 ^ 32 ∧ l'.pref ≤ 2 ^ 64) :
    ∃ own brs all, Mapped True b2 own brs all := by
  obtain ⟨b', rs1, e, t1, s1, hc1, hf1, -⟩ := readBus_spec ops b rs ht
  rw [hr] at e
  obtain rfl := Except.ok.inj e
  obtain ⟨own, brs, all, m, -⟩ := assignBus_mapped ops True b1 rs1 t1 l b2 l' ha h0 hl (hc1 hc) (fun _ => hf1 hb)
  exact ⟨own, brs, all, m⟩

/-- C31: the hypothesis on the bridges' registers holds at reset and after any sequence of configuration writes. -/
theorem C31_registers_reset (caps : σ) (bars : List BarReg) : BrClean ({ caps := caps, bars := bars } : Br σ) :=
  ⟨(by decide : (0 : Nat) < 2 ^ 32 ∧ 0 % 2 ^ 12 = 0), (by decide : (0xfff : Nat) < 2 ^ 32),
    (by decide : (0 : Nat) < 2 ^ 32 ∧ 0 % 2 ^ 20 = 0), (by decide : (0xfffff : Nat) < 2 ^ 32),
    (by decide : (0 : Nat) < 2 ^ 64 ∧ 0 % 2 ^ 20 = 0), (by decide : (0xfffff : Nat) < 2 ^ 64)⟩

theorem C31_registers_write (f : Br σ) (h : BrClean f) (ws : List (Nat × Nat × Nat)) (hm : ∀ w ∈ ws, w.2.2 < 16) :
    BrClean (ws.foldl (fun f w => f.write ops w.1 w.2.1 w.2.2) f) := by
  induction ws generalizing f with
  | nil => exact h
  | cons w ws ih =>
    exact ih _ (brClean_write ops f _ _ _ (hm w (by simp)) h) (fun v hv => hm v (List.mem_cons_of_mem _ hv))

end

/-- The tree `exBus` meets the hypotheses of `C31_windows`, and the run succeeds. -/
theorem exBus_ok : BrsClean exBus ∧ BridgesFirst exBus := by
  have hn : NoRes ({ caps := (), bars := [{}, {}] } : Br Unit).toCommon := ⟨by simp, rfl, rfl⟩
  exact ⟨⟨C31_registers_reset _ _, trivial, C31_registers_reset _ _, trivial, trivial⟩, hn, ⟨by simp [hasBridge], trivial⟩, hn,
    trivial, by simp [hasBridge], trivial⟩

example : ∃ b2 l' own brs all, runBus exBus hostLimits = .ok (b2, l') ∧ Mapped True b2 own brs all := by
  have e1 : (runBus exBus hostLimits).toOption.map Prod.snd = some ⟨0x80001100, 0xc0101000, 0x8000000000101000⟩ := by
    decide +kernel
  cases h : runBus exBus hostLimits with
  | error e => rw [h] at e1; simp [Except.toOption] at e1
  | ok p =>
    obtain ⟨b2, l'⟩ := p
    rw [h] at e1
    have hl : l' = ⟨0x80001100, 0xc0101000, 0x8000000000101000⟩ := by simpa [Except.toOption] using e1
    unfold runBus at h
    cases hr : readBus noCaps exBus with
    | error e => rw [hr] at h; cases h
    | ok b1 =>
      rw [hr] at h
      obtain ⟨own, brs, all, m⟩ := C31_windows noCaps exBus b1 b2 _ hostLimits l' exBus_tree exBus_ok.1 exBus_ok.2 hr h
        (by decide) (by rw [hl]; decide)
      exact ⟨b2, l', own, brs, all, rfl, m⟩

/-- C31 (violated): the window of a bridge overlaps the BARs of functions that come before it on the same bus: the bases are
not aligned before the window is opened, so that the programmed base, rounded down to 1 MiB, is below them. Here: an
endpoint with a 16-byte BAR and a bridge with the same behind it; the endpoint's BAR is at 0xc000_0000, and the window of the
bridge is 0xc000_0000 to 0xc00f_ffff. -/
theorem C31_sibling_bar_violated :
    let ep : Ep Unit := { caps := (), bars := [⟨0, 0xfffffff0⟩, {}, {}, {}, {}, {}] }
    let b : Bus Unit := .ep ep {} (.br { caps := (), bars := [{}, {}] } {} (.ep ep {} .nil) .nil)
    (∃ rs, Tree Any b rs) ∧ (runBus b hostLimits).toOption.map (fun p => match p.1 with
      | .ep f _ (.br g _ _ _) => (f.bars.map BarReg.val, g.memBase, g.memLimit) | _ => ([], 0, 0)) =
        some ([0xc0000000, 0, 0, 0, 0, 0], 0xc0000000, 0xc00fffff) := by
  have hl : FnRes 6 ({ caps := (), bars := [⟨0, 0xfffffff0⟩, {}, {}, {}, {}, {}] } : Ep Unit).toCommon [⟨0, false, false, 0, 4⟩] none :=
    ⟨.mem32 _ _ _ _ _ _ (by decide) (.absent _ _ _ _ rfl (.absent _ _ _ _ rfl (.absent _ _ _ _ rfl (.absent _ _ _ _ rfl
      (.absent _ _ _ _ rfl (.nil _)))))), rfl, rfl, rfl⟩
  exact ⟨⟨_, .ep _ _ _ _ _ _ hl trivial (.br _ _ _ _ _ _ _ _ exBr_res trivial (.ep _ _ _ _ _ _ hl trivial .nil) .nil)⟩,
    by decide +kernel⟩

/-- C31 (violated above 4 GiB): a non-prefetchable 64-bit BAR of 2 GiB behind a bridge is placed at 4 GiB, which the 32-bit
memory window cannot express: the window is 0xc000_0000 to 0x7fff_ffff, that is, empty. -/
theorem C31_above_4g_violated :
    let ep : Ep Unit := { caps := (), bars := [⟨4, 0x80000000⟩, ⟨0, 0xffffffff⟩, {}, {}, {}, {}] }
    let b : Bus Unit := .br { caps := (), bars := [{}, {}] } {} (.ep ep {} .nil) .nil
    (∃ rs, Tree Any b rs) ∧ (runBus b hostLimits).toOption.map (fun p => match p.1 with
      | .br g _ (.ep f _ _) _ => (f.bars.map BarReg.val, g.memBase, g.memLimit) | _ => ([], 0, 0)) =
        some ([4, 1, 0, 0, 0, 0], 0xc0000000, 0x7fffffff) := by
  have hl : FnRes 6 ({ caps := (), bars := [⟨4, 0x80000000⟩, ⟨0, 0xffffffff⟩, {}, {}, {}, {}] } : Ep Unit).toCommon
      [⟨0, false, true, 0, 31⟩] none :=
    ⟨.mem64 _ _ _ _ _ _ _ (by decide) (.absent _ _ _ _ rfl (.absent _ _ _ _ rfl (.absent _ _ _ _ rfl
      (.absent _ _ _ _ rfl (.nil _))))), rfl, rfl, rfl⟩
  exact ⟨⟨_, .br _ _ _ _ _ _ _ _ exBr_res trivial (.ep _ _ _ _ _ _ hl trivial .nil) .nil⟩, by decide +kernel⟩

end Pcie
