import Verif.Lemmas.CapRegs
import Verif.Model.Caps
/-
C51: the registers of the power management, PCI Express, secondary PCI Express and advanced error reporting capabilities show the attributes of the
capability objects at the bits that the PCI Express specification gives them, and software changes exactly the fields that are read-write or
write-one-to-clear. `Spec.pmMap` and the other maps are the specification.
-/
namespace Pcie
open CapRegs

/-- Bits of the power management capability that differ from the specification: the version field shows 3 whatever attribute `version` is. -/
def pmReadDev : List (Nat × Nat) := [(0, 16), (0, 17), (0, 18)]
/-- `data_scale` is read-only but the code lets software write it. -/
def pmWriteDev : List (Nat × Nat) := [(1, 13), (1, 14)]

theorem pm_fits : tabFits pm Spec.pmMap = true := by decide +kernel
theorem pm_rdOk (reg i : Nat) (h : (reg, i) ∉ pmReadDev) : rdOk pm Spec.pmMap reg i = true :=
  tabOk_rd _ _ pmReadDev (by decide +kernel) pm_fits pm_ends _ _ h
theorem pm_wrOk (reg i : Nat) (h : (reg, i) ∉ pmWriteDev) : wrOk pm Spec.pmMap reg i = true :=
  tabOk_wr _ _ pmWriteDev (by decide +kernel) pm_fits pm_ends _ _ h

/-- C51 (power management, reads). What is missing: the version field. -/
theorem C51_pm_read_partial (s : Attrs) (reg i : Nat) (h : (reg, i) ∉ pmReadDev) : (pm.read s reg).testBit i = Spec.pmMap.reported s reg i :=
  read_of_rdOk _ _ _ _ _ (pm_rdOk _ _ h)

/-- C51 (power management, writes). What is missing: the version field and the data scale. -/
theorem C51_pm_write_partial (s : Attrs) (reg data mask i : Nat) (h : (reg, i) ∉ pmReadDev) (hw : (reg, i) ∉ pmWriteDev) :
    Spec.WrittenAt (Spec.pmMap.hasAcc .rw reg) (Spec.pmMap.hasAcc .w1c reg) (pm.read s reg) (pm.read (pm.write s reg data mask) reg) data mask i :=
  write_of_wrOk _ _ _ _ _ _ _ (pm_rdOk _ _ h)
    (pm_wrOk _ _ hw)

/-- C51 (power management): a write to one register changes no other register. -/
theorem C51_pm_others (s : Attrs) (reg reg' data mask : Nat) (h : reg' ≠ reg) : pm.read (pm.write s reg data mask) reg' = pm.read s reg' :=
  tabApart_read pm Spec.pmMap (by decide +kernel) pm_ends s reg reg' data mask h

/-- C51 (power management): a write changes no attribute but those of the writable fields of the register. What is missing: `data_scale`. -/
theorem C51_pm_frame_partial (s : Attrs) (reg data mask : Nat) (a : Attrib) (hx : a ≠ ("data_scale", 0))
    (h : ∀ f ∈ Spec.pmMap reg, f.name = a → f.acc = .ro) : pm.write s reg data mask a = s a :=
  tabFrame_write pm Spec.pmMap [(1, ("data_scale", 0))] (by decide +kernel) pm_ends s reg data mask a
    (by intro e; rw [List.mem_singleton, Prod.mk.injEq] at e; exact hx e.2) h

/-- The version attribute of a power management capability does not show: two versions, same register. -/
theorem C51_pm_version_violated : ∃ s : Attrs, ∃ i, (pm.read s 0).testBit i ≠ Spec.pmMap.reported s 0 i :=
  ⟨fun _ => 0, 16, by decide +kernel⟩

/-- Software can change the read-only data scale. -/
theorem C51_pm_scale_violated : ∃ s : Attrs, ∃ i, ¬ Spec.WrittenAt (Spec.pmMap.hasAcc .rw 1) (Spec.pmMap.hasAcc .w1c 1) (pm.read s 1)
    (pm.read (pm.write s 1 0x2000 2) 1) 0x2000 2 i :=
  ⟨fun _ => 0, 13, by unfold Spec.WrittenAt; decide +kernel⟩

/-- Bits of the PCI Express capability that do not show the attribute: the capability version is always 2; register 3 shifts the link width, ASPM
support and exit latencies right instead of left, which also touches bits 0 and 1; electromechanical interlock control does not read as zero;
`downstream_component_presence` is one bit too low. -/
def pcieReadDev : List (Nat × Nat) := [(0, 16), (0, 17), (0, 18), (0, 19), (3, 0), (3, 1), (3, 4), (3, 5), (3, 6), (3, 7), (3, 8), (3, 9), (3, 10),
  (3, 11), (3, 12), (3, 13), (3, 14), (3, 15), (3, 16), (3, 17), (6, 11), (12, 27), (12, 28), (12, 29), (12, 30)]
/-- Bits of the PCI Express capability that are not written as specified: bits 24 of register 6 and 31 of register 12 are cleared under the byte
enable of byte 2; `link_equalization_8gt_request` takes the value written. -/
def pcieWriteDev : List (Nat × Nat) := [(6, 24), (12, 21), (12, 31)]

theorem pcie_fits : tabFits pcie Spec.pcieMap = true := by decide +kernel
theorem pcie_rdOk (reg i : Nat) (h : (reg, i) ∉ pcieReadDev) : rdOk pcie Spec.pcieMap reg i = true :=
  tabOk_rd _ _ pcieReadDev (by decide +kernel) pcie_fits pcie_ends _ _ h
theorem pcie_wrOk (reg i : Nat) (h : (reg, i) ∉ pcieWriteDev) : wrOk pcie Spec.pcieMap reg i = true :=
  tabOk_wr _ _ pcieWriteDev (by decide +kernel) pcie_fits pcie_ends _ _ h

/-- C51 (PCI Express, reads). What is missing: the bits of `pcieReadDev`. -/
theorem C51_pcie_read_partial (s : Attrs) (reg i : Nat) (h : (reg, i) ∉ pcieReadDev) : (pcie.read s reg).testBit i = Spec.pcieMap.reported s reg i :=
  read_of_rdOk _ _ _ _ _ (pcie_rdOk _ _ h)

/-- C51 (PCI Express, writes). What is missing: the bits of `pcieReadDev` and `pcieWriteDev`. -/
theorem C51_pcie_write_partial (s : Attrs) (reg data mask i : Nat) (h : (reg, i) ∉ pcieReadDev) (hw : (reg, i) ∉ pcieWriteDev) :
    Spec.WrittenAt (Spec.pcieMap.hasAcc .rw reg) (Spec.pcieMap.hasAcc .w1c reg) (pcie.read s reg) (pcie.read (pcie.write s reg data mask) reg)
      data mask i :=
  write_of_wrOk _ _ _ _ _ _ _ (pcie_rdOk _ _ h)
    (pcie_wrOk _ _ hw)

/-- C51 (PCI Express): a write to one register changes no other register. -/
theorem C51_pcie_others (s : Attrs) (reg reg' data mask : Nat) (h : reg' ≠ reg) : pcie.read (pcie.write s reg data mask) reg' = pcie.read s reg' :=
  tabApart_read pcie Spec.pcieMap (by decide +kernel) pcie_ends s reg reg' data mask h

/-- C51 (PCI Express): a write changes no attribute but those of the writable fields of the register. What is missing:
`electromechanical_interlock_control`, which the specification does not store. -/
theorem C51_pcie_frame_partial (s : Attrs) (reg data mask : Nat) (a : Attrib) (hx : a ≠ ("electromechanical_interlock_control", 0))
    (h : ∀ f ∈ Spec.pcieMap reg, f.name = a → f.acc = .ro) : pcie.write s reg data mask a = s a :=
  tabFrame_write pcie Spec.pcieMap [(6, ("electromechanical_interlock_control", 0))] (by decide +kernel) pcie_ends s reg data mask a
    (by intro e; rw [List.mem_singleton, Prod.mk.injEq] at e; exact hx e.2) h

/-- An object all of whose attributes are zero but one. -/
def oneAttr (n : String) (v : Nat) : Attrs := fun a => if a = (n, 0) then v else 0

/-- The maximum link width does not show in the link capabilities: an object for a link of one lane reads as zero, one of 16 lanes as speed 1. -/
theorem C51_pcie_width_violated : Spec.pcieMap.reported (oneAttr "max_link_width" 1) 3 4 = true ∧ pcie.read (oneAttr "max_link_width" 1) 3 = 0 ∧
    pcie.read (oneAttr "max_link_width" 16) 3 = 1 := by decide +kernel

/-- The capability version attribute does not show. -/
theorem C51_pcie_version_violated : Spec.pcieMap.reported (oneAttr "pcie_capability_version" 1) 0 16 = true ∧
    (pcie.read (oneAttr "pcie_capability_version" 1) 0).testBit 16 = false := by decide +kernel

/-- Software can set the equalization request bit, and cannot clear "data link layer state changed" and "DRS message received" by a write to the
byte they are in. -/
theorem C51_pcie_clear_violated :
    (pcie.read (pcie.write (fun _ => 0) 12 (2 ^ 21) 4) 12).testBit 21 = true ∧
    (pcie.read (pcie.write (oneAttr "data_link_layer_state_changed" 1) 6 (2 ^ 24) 8) 6).testBit 24 = true ∧
    (pcie.read (pcie.write (oneAttr "drs_message_received" 1) 12 (2 ^ 31) 8) 12).testBit 31 = true := by decide +kernel

/-- `downstream_component_presence` is a bit too low. -/
theorem C51_pcie_presence_violated : (pcie.read (oneAttr "downstream_component_presence" 1) 12).testBit 28 = false ∧
    (pcie.read (oneAttr "downstream_component_presence" 1) 12).testBit 27 = true := by decide +kernel

/-- A write leaves a value of more than four bits in attribute `compliance_preset_deemphasis`: it takes bits of the status register's half too. -/
theorem C51_pcie_preset_violated : pcie.write (fun _ => 0) 12 0x10000 2 ("compliance_preset_deemphasis", 0) = 16 := by decide +kernel

theorem exp2_fits : tabFits exp2 Spec.exp2Map = true := by decide +kernel
theorem exp2_rdOk (reg i : Nat) (hr : reg < 3) : rdOk exp2 Spec.exp2Map reg i = true := by
  refine tabOk_rd exp2 Spec.exp2Map ((List.range 16).flatMap fun r => (List.range 32).map fun i => (r + 3, i)) (by decide +kernel) exp2_fits
    exp2_ends reg i ?_
  intro e
  simp only [List.mem_flatMap, List.mem_map, Prod.mk.injEq] at e
  obtain ⟨r, _, j, _, e, _⟩ := e
  omega

/-- C51 (secondary PCI Express, reads), for the header, link control 3 and the lane error status. What is missing: the lane equalization registers. -/
theorem C51_exp2_read_partial (s : Attrs) (reg i : Nat) (hr : reg < 3) : (exp2.read s reg).testBit i = Spec.exp2Map.reported s reg i :=
  read_of_rdOk _ _ _ _ _ (exp2_rdOk reg i hr)

/-- C51 (secondary PCI Express, writes). -/
theorem C51_exp2_write_partial (s : Attrs) (reg data mask i : Nat) (hr : reg < 3) :
    Spec.WrittenAt (Spec.exp2Map.hasAcc .rw reg) (Spec.exp2Map.hasAcc .w1c reg) (exp2.read s reg) (exp2.read (exp2.write s reg data mask) reg)
      data mask i :=
  write_of_wrOk _ _ _ _ _ _ _ (exp2_rdOk reg i hr) (tabOk_wr _ _ [] (by decide +kernel) exp2_fits exp2_ends _ _ (by simp))

/-- C51 (secondary PCI Express): a write to one register changes no other register. -/
theorem C51_exp2_others (s : Attrs) (reg reg' data mask : Nat) (h : reg' ≠ reg) : exp2.read (exp2.write s reg data mask) reg' = exp2.read s reg' :=
  tabApart_read exp2 Spec.exp2Map (by decide +kernel) exp2_ends s reg reg' data mask h

/-- C51 (secondary PCI Express): a write changes no attribute but those of the writable fields of the register. -/
theorem C51_exp2_frame (s : Attrs) (reg data mask : Nat) (a : Attrib) (h : ∀ f ∈ Spec.exp2Map reg, f.name = a → f.acc = .ro) :
    exp2.write s reg data mask a = s a :=
  tabFrame_write exp2 Spec.exp2Map [] (by decide +kernel) exp2_ends s reg data mask a (by simp) h

/-- The equalization control of lanes 0 and 1 shows in no register: two objects that differ there read the same everywhere. -/
theorem C51_exp2_lanes_violated : ∃ s s' : Attrs, (∃ reg i, Spec.exp2Map.reported s reg i ≠ Spec.exp2Map.reported s' reg i) ∧
    ∀ reg, exp2.read s reg = exp2.read s' reg := by
  refine ⟨oneAttr "downstream_port_8gt_transmitter_preset" 1, fun _ => 0, ⟨3, 0, by decide +kernel⟩, ?_⟩
  intro reg
  by_cases hr : 19 ≤ reg
  · have h0 : reg ≠ 0 := by omega
    simp [RegCap.read, h0, (exp2_ends reg hr).1, evalRd]
  · have : ∀ reg < 19, exp2.read (oneAttr "downstream_port_8gt_transmitter_preset" 1) reg = exp2.read (fun _ => 0) reg := by decide +kernel
    exact this reg (by omega)

/-- The registers from 3 to 17 moved by one. -/
def exp2Moved : Spec.RegMap := fun reg => if reg < 3 then [] else Spec.exp2Map (reg + 1)

theorem exp2Moved_ends : Ends exp2 exp2Moved := by
  intro reg h
  obtain ⟨h1, h2, _⟩ := exp2_ends reg h
  refine ⟨h1, h2, ?_⟩
  rw [exp2Moved, if_neg (by omega)]
  exact (exp2_ends (reg + 1) (by omega)).2.2

/-- C51 (secondary PCI Express, lane equalization): register `reg` from 3 on shows, at the specified bits, the lanes the specification has in the
register after it. What is missing: lanes 0 and 1, which show nowhere. -/
theorem C51_exp2_lanes_partial (s : Attrs) (reg i : Nat) (hr : 3 ≤ reg) : (exp2.read s reg).testBit i = Spec.exp2Map.reported s (reg + 1) i := by
  have h : rdOk exp2 exp2Moved reg i = true := by
    refine tabOk_rd exp2 exp2Moved ((List.range 3).flatMap fun r => (List.range 32).map fun i => (r, i)) (by decide +kernel) (by decide +kernel)
      exp2Moved_ends reg i ?_
    intro e
    simp only [List.mem_flatMap, List.mem_map, List.mem_range, Prod.mk.injEq] at e
    obtain ⟨r, _, j, _, e, _⟩ := e
    omega
  rw [read_of_rdOk _ _ _ _ _ h]
  unfold Spec.RegMap.reported exp2Moved
  rw [if_neg (by omega)]

/-- C51 (secondary PCI Express, lane equalization): lane 2's transmitter preset is in register 3. -/
example : (exp2.read (fun a => if a = ("downstream_port_8gt_transmitter_preset", 2) then 5 else 0) 3) = 5 := by decide +kernel

/-- Bits of the advanced error reporting capability that do not show the attribute: bit 4 of the first error pointer; the enables for correctable and
fatal errors in the root error command are exchanged. -/
def aerDev : List (Nat × Nat) := [(6, 4), (11, 0), (11, 2)]

theorem aer_fits : tabFits aer Spec.aerMap = true := by decide +kernel
theorem aer_rdOk (reg i : Nat) (h : (reg, i) ∉ aerDev) : rdOk aer Spec.aerMap reg i = true :=
  tabOk_rd _ _ aerDev (by decide +kernel) aer_fits aer_ends _ _ h
theorem aer_wrOk (reg i : Nat) (h : (reg, i) ∉ aerDev) : wrOk aer Spec.aerMap reg i = true :=
  tabOk_wr _ _ aerDev (by decide +kernel) aer_fits aer_ends _ _ h

/-- C51 (advanced error reporting, reads). What is missing: the bits of `aerDev`. -/
theorem C51_aer_read_partial (s : Attrs) (reg i : Nat) (h : (reg, i) ∉ aerDev) : (aer.read s reg).testBit i = Spec.aerMap.reported s reg i :=
  read_of_rdOk _ _ _ _ _ (aer_rdOk _ _ h)

/-- C51 (advanced error reporting, writes). What is missing: the bits of `aerDev`. -/
theorem C51_aer_write_partial (s : Attrs) (reg data mask i : Nat) (h : (reg, i) ∉ aerDev) :
    Spec.WrittenAt (Spec.aerMap.hasAcc .rw reg) (Spec.aerMap.hasAcc .w1c reg) (aer.read s reg) (aer.read (aer.write s reg data mask) reg) data mask i :=
  write_of_wrOk _ _ _ _ _ _ _ (aer_rdOk _ _ h)
    (aer_wrOk _ _ h)

/-- C51 (advanced error reporting): a write to one register changes no other register. -/
theorem C51_aer_others (s : Attrs) (reg reg' data mask : Nat) (h : reg' ≠ reg) : aer.read (aer.write s reg data mask) reg' = aer.read s reg' :=
  tabApart_read aer Spec.aerMap (by decide +kernel) aer_ends s reg reg' data mask h

/-- C51 (advanced error reporting): a write changes no attribute but those of the writable fields of the register. -/
theorem C51_aer_frame (s : Attrs) (reg data mask : Nat) (a : Attrib) (h : ∀ f ∈ Spec.aerMap reg, f.name = a → f.acc = .ro) :
    aer.write s reg data mask a = s a :=
  tabFrame_write aer Spec.aerMap [] (by decide +kernel) aer_ends s reg data mask a (by simp) h

/-- The enable for correctable errors is set through the bit for fatal errors, and the first error pointer loses bit 4. -/
theorem C51_aer_command_violated :
    aer.write (fun _ => 0) 11 1 1 ("correctable_error_reporting_enable", 0) = 0 ∧
    aer.write (fun _ => 0) 11 1 1 ("fatal_error_reporting_enable", 0) = 1 ∧
    aer.read (oneAttr "first_error_pointer" 16) 6 = 0 := by decide +kernel

/-- In a capability list, the root error registers and the TLP prefix log of an advanced error reporting capability cannot be reached, wherever the
capability is and whatever its attributes are: the length that it gives is 11, so the registers from 11 on belong to no capability. -/
theorem C51_aer_length_violated (s : Attrs) (o ver next reg : Nat) (h : 11 ≤ reg) :
    let l : CapList := { start := 0x40, list := [0], objs := fun _ => ⟨1, ver, aerLength, some o, next, fun r => evalRd s (aer.rd r)⟩ }
    l.readExt (o + reg) = 0 := by
  intro l
  have : l.findByReg (o + reg) = none := by
    simp [l, CapList.findByReg, CapList.off, CapList.len, aerLength]; omega
  unfold CapList.readExt
  rw [this]

/-! The hypotheses are met, and the maps are sensible: no two fields of a register overlap. -/

example : ∀ m ∈ [Spec.pmMap, Spec.pcieMap, Spec.exp2Map, Spec.aerMap], ∀ reg < 19, ∀ i < 32, ((m reg).filter (·.covers i)).length ≤ 1 := by
  decide +kernel

example : pm.read (oneAttr "pme_support" 0x1f) 0 = 0xf8030000 := by decide +kernel
example : (pm.read (pm.write (oneAttr "pme_status" 1) 1 0x8103 3) 1) = 0x103 := by decide +kernel
example : (pcie.read (pcie.write (fun _ => 0) 2 0x50a0 3) 2) = 0x50a0 := by decide +kernel
example : ((2, 5) ∉ pcieReadDev ∧ (2, 5) ∉ pcieWriteDev ∧ Spec.pcieMap.hasAcc .rw 2 5 = true ∧ Spec.pcieMap.hasAcc .w1c 2 16 = true) := by decide +kernel
example : aer.read (aer.write (oneAttr "malformed_tlp_status" 1) 1 0xffffffff 4) 1 = 0 := by decide +kernel
example : exp2.read (exp2.write (oneAttr "lane_error_status" 0xffff) 2 0xff 1) 2 = 0xff00 := by decide +kernel
example : ∀ f ∈ Spec.aerMap 6, f.name = ("first_error_pointer", 0) → f.acc = .ro := by decide +kernel

end Pcie
