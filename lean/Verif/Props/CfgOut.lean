import Verif.Lemmas.CfgOut
/-
C66: the configuration outputs of the hard IP models show the registers that the host reads by configuration requests.
-/
namespace Pcie
open CapRegs

/-- The bits of a word of register `r`. -/
private def rowOk (keep : HSrc → Bool) (regs : List (List OutS)) (map : List (List Spec.OutField)) (r : Nat) : Bool :=
  (List.range 32).all fun i => outOk keep regs map r i

/-- The statements and the fields are within a word. -/
private def rowFits (regs : List (List OutS)) (map : List (List Spec.OutField)) (r : Nat) : Bool :=
  (regs.getD r []).all OutS.fits && (map.getD r []).all (fun x => decide (x.lsb + x.width ≤ 32))

/-- Before the upper half, the lower half is shown. -/
private def rowSaved (regs : List (List OutS)) (r : Nat) : Bool := !(regs.getD r []).contains .savedHi || (prevReg regs r).isSome

private theorem shows_of (keep : HSrc → Bool) (regs : List (List OutS)) (map : List (List Spec.OutField)) (hlen : regs.length = map.length)
    (hR : 0 < regs.length) (m : Nat) (fns : Nat → List CfgFn) (hf : Spec.Functions m fns) (n : Nat) (ht : rowOk keep regs map (n % regs.length) = true)
    (hsv : rowSaved regs (n % regs.length) = true)
    (hfit : ∀ i, 32 ≤ i → ∀ f ∈ fns n, ∀ saved, (evalOut f saved (regs.getD (n % regs.length) [])).testBit i = false)
    (hfit' : (map.getD (n % regs.length) []).all (fun x => decide (x.lsb + x.width ≤ 32)) = true)
    (hkeep : ∀ f ∈ fns n, ∀ f' x, keep x = false → (x : HSrc).val f f' = false) :
    ∃ out, cfgOutAt regs fns n = some out ∧ Spec.CfgShows map m fns n out := by
  obtain ⟨hm, hl⟩ := hf
  obtain ⟨p, hp, ho⟩ := pos_ok regs fns m hm hR (fun n => (hl n).1) n
  obtain ⟨out, p', hst, _, f, f0, h1, h2, h3⟩ := pos_step regs fns m n hm hR (fun n => (hl n).1) p ho
  have hk' : p.k < (fns (n - 1)).length := by rw [ho.k, (hl _).1]; exact Nat.mod_lt _ hm
  obtain ⟨f', hf'⟩ := getElem?_lt (fns (n - 1)) p.k hk'
  refine ⟨out, by simp [cfgOutAt, hp, hst], ?_⟩
  unfold Spec.CfgShows
  rw [← hlen]
  refine ⟨f, f', f0, ho.k ▸ h1, ho.k ▸ hf', ho.k ▸ h2, by rw [h3], by rw [h3], ?_⟩
  intro i
  rw [h3]
  have mem := List.mem_of_getElem? h1
  have mf := (hl n).2 f mem
  have mf' := (hl (n - 1)).2 f' (List.mem_of_getElem? hf')
  by_cases hi : i < 32
  · refine outOk_bit keep regs map _ i (List.all_eq_true.1 ht i (List.mem_range.2 hi)) f f' mf mf' (hkeep f mem f') p.saved ?_
    intro hs
    have hc : (regs.getD (n % regs.length) []).contains .savedHi = true := by simpa using hs
    unfold rowSaved at hsv
    rw [hc] at hsv
    obtain ⟨reg, hreg⟩ := Option.isSome_iff_exists.1 (by simpa using hsv)
    obtain ⟨g, hg, hsav⟩ := ho.saved reg hreg
    rw [hf'] at hg; cases hg
    exact ⟨reg, hreg, hsav⟩
  · rw [hfit i (by omega) f mem, shown_fits _ hfit' f f' i (by omega)]

private theorem shows_row (regs : List (List OutS)) (map : List (List Spec.OutField)) (hlen : regs.length = map.length) (hR : 0 < regs.length)
    (m : Nat) (fns : Nat → List CfgFn) (hf : Spec.Functions m fns) (n : Nat)
    (ht : (rowOk (fun _ => true) regs map (n % regs.length) && rowSaved regs (n % regs.length) && rowFits regs map (n % regs.length)) = true) :
    ∃ out, cfgOutAt regs fns n = some out ∧ Spec.CfgShows map m fns n out := by
  simp only [rowFits, Bool.and_eq_true] at ht
  exact shows_of _ regs map hlen hR m fns hf n ht.1.1 ht.1.2 (fun i hi f hfm saved => evalOut_fits f ((hf.2 n).2 f hfm) saved i hi _ ht.2.1) ht.2.2
    (fun f _ f' x hx => by cases hx)

private theorem shows_all (regs : List (List OutS)) (map : List (List Spec.OutField)) (hlen : regs.length = map.length) (hR : 0 < regs.length)
    (ht : ((List.range regs.length).all fun r => rowOk (fun _ => true) regs map r && rowSaved regs r && rowFits regs map r) = true)
    (m : Nat) (fns : Nat → List CfgFn) (hf : Spec.Functions m fns) (n : Nat) : ∃ out, cfgOutAt regs fns n = some out ∧ Spec.CfgShows map m fns n out :=
  shows_row regs map hlen hR m fns hf n (List.all_eq_true.1 ht _ (List.mem_range.2 (Nat.mod_lt _ hR)))

/-- C66 (Stratix 10 H-Tile): in every clock cycle, whatever the host writes in the meantime, the outputs show the function and register whose turn it is, and every bit of the value is the bit of the
register that the host would read now. -/
theorem C66_htile (m : Nat) (fns : Nat → List CfgFn) (h : Spec.Functions m fns) (n : Nat) :
    ∃ out, cfgOutAt htileOut fns n = some out ∧ Spec.CfgShows Spec.htileMap m fns n out :=
  shows_all htileOut Spec.htileMap rfl (by decide) (by decide +kernel) m fns h n

/-- C66 (P-Tile): the same, in halves; the upper halves of error masks and severity belong to the lower halves shown in the cycle before. -/
theorem C66_ptile (m : Nat) (fns : Nat → List CfgFn) (h : Spec.Functions m fns) (n : Nat) :
    ∃ out, cfgOutAt ptileOut fns n = some out ∧ Spec.CfgShows Spec.ptileMap m fns n out :=
  shows_all ptileOut Spec.ptileMap rfl (by decide) (by decide +kernel) m fns h n

/-- All sources but the advanced error interrupt message number. -/
private def noAdv : HSrc → Bool
  | (false, .aer, .bit a k) => !(a == ("advanced_error_interrupt_message_number", 0) && decide (k < 5))
  | _ => true

private theorem evalOut_drop (f : CfgFn) (saved : Nat) (a : List OutS) (s : OutS) (b : List OutS) (h : s.eval f saved = 0) :
    evalOut f saved (a ++ s :: b) = evalOut f saved (a ++ b) := by
  simp only [evalOut, List.foldl_append, List.foldl_cons, h, Nat.or_zero]

private def ltile1a : List OutS := (ltileOut.getD 1 []).take 3
private def ltile1b : List OutS := (ltileOut.getD 1 []).drop 4

private theorem ltile1_eq : ltileOut.getD 1 [] = ltile1a ++ .rd .aer (.num ("advanced_error_interrupt_message_number", 0) 0x1f 28) :: ltile1b := by decide +kernel

/-- C66 (Stratix 10 L-Tile): the same, but register 1 only while the advanced error interrupt message number is zero. Missing: other message numbers (`C66_ltile_violated`). -/
theorem C66_ltile_partial (m : Nat) (fns : Nat → List CfgFn) (h : Spec.Functions m fns) (n : Nat)
    (hadv : n % 8 = 1 → ∀ f ∈ fns n, f.aer ("advanced_error_interrupt_message_number", 0) % 2 ^ 5 = 0) :
    ∃ out, cfgOutAt ltileOut fns n = some out ∧ Spec.CfgShows Spec.ltileMap m fns n out := by
  have hlt : n % 8 < 8 := Nat.mod_lt _ (by decide)
  by_cases h1 : n % 8 = 1
  · have h1' : n % ltileOut.length = 1 := h1
    have hz : ∀ f ∈ fns n, f.aer ("advanced_error_interrupt_message_number", 0) &&& 0x1f = 0 := by
      intro f hf
      rw [show (0x1f : Nat) = 2 ^ 5 - 1 from rfl, Nat.and_two_pow_sub_one_eq_mod]; exact hadv h1 f hf
    refine shows_of noAdv ltileOut Spec.ltileMap rfl (by decide) m fns h n ?_ ?_ ?_ ?_ ?_
    · rw [h1']; decide +kernel
    · rw [h1']; decide +kernel
    · intro i hi f hf saved
      rw [h1', ltile1_eq, evalOut_drop]
      · exact evalOut_fits f ((h.2 n).2 f hf) saved i hi _ (by decide +kernel)
      · show (f.aer ("advanced_error_interrupt_message_number", 0) &&& 0x1f) <<< 28 = 0
        rw [hz f hf]; rfl
    · rw [h1']; decide +kernel
    · intro f hf f' x hx
      have : ∃ k, k < 5 ∧ x = (false, .aer, .bit ("advanced_error_interrupt_message_number", 0) k) := by
        unfold noAdv at hx
        split at hx
        · rename_i a k
          simp at hx
          exact ⟨k, hx.2, by rw [hx.1]⟩
        · cases hx
      obtain ⟨k, hk, rfl⟩ := this
      show (f.aer ("advanced_error_interrupt_message_number", 0)).testBit k = false
      have := congrArg (fun y => Nat.testBit y k) (hz f hf)
      simp only [show (0x1f : Nat) = 2 ^ 5 - 1 from rfl, tb_field0] at this
      simpa [hk] using this
  · refine shows_row ltileOut Spec.ltileMap rfl (by decide) m fns h n ?_
    have : n % ltileOut.length = 0 ∨ n % ltileOut.length = 2 ∨ n % ltileOut.length = 3 ∨ n % ltileOut.length = 4 ∨ n % ltileOut.length = 5 ∨ n % ltileOut.length = 6 ∨
        n % ltileOut.length = 7 := by
      show n % 8 = 0 ∨ n % 8 = 2 ∨ n % 8 = 3 ∨ n % 8 = 4 ∨ n % 8 = 5 ∨ n % 8 = 6 ∨ n % 8 = 7
      omega
    rcases this with e | e | e | e | e | e | e <;> rw [e] <;> decide +kernel

/-- A function, with the attributes of the capabilities given as a list. -/
private def exFnOf (pcie aer : List (String × Nat)) (msi : MsiCap) : CfgFn :=
  { id := ⟨5, 0, 0⟩, fn := { memEnable := true, busMaster := true, caps := () }, pm := fun _ => 0,
    pcie := fun a => (pcie.lookup a.1).getD 0, aer := fun a => (aer.lookup a.1).getD 0, msi := msi, msix := {} }

private theorem exMsiOk : Spec.MsiOk {} := ⟨by decide, by decide, by decide, by decide⟩

/-- Register 1 of the L-Tile shows the advanced error interrupt message number four bits too high: message number 1 appears as 16, number 2 sets the bit of system error on correctable errors although that
is off, and number 16 makes a value that does not fit into the output. -/
theorem C66_ltile_violated :
    (∃ f out, Spec.MsiOk f.msi ∧ f.aer ("advanced_error_interrupt_message_number", 0) = 2 ∧ cfgOutAt ltileOut (fun _ => [f]) 1 = some out ∧
      out.ctl.testBit 29 = true ∧ (CapRegs.pcie.read f.pcie 7).testBit 0 = false ∧ out.ctl.testBit 25 = false) ∧
    (∃ f out, Spec.MsiOk f.msi ∧ f.aer ("advanced_error_interrupt_message_number", 0) = 16 ∧ cfgOutAt ltileOut (fun _ => [f]) 1 = some out ∧ 2 ^ 32 ≤ out.ctl) :=
  ⟨⟨exFnOf [] [("advanced_error_interrupt_message_number", 2)] {}, ⟨0, 1, 2 <<< 28⟩, exMsiOk, by decide +kernel, by decide +kernel, by decide +kernel, by decide +kernel, by decide +kernel⟩,
   ⟨exFnOf [] [("advanced_error_interrupt_message_number", 16)] {}, ⟨0, 1, 16 <<< 28⟩, exMsiOk, by decide +kernel, by decide +kernel, by decide +kernel⟩⟩

/-- C66: every register of every function has its turn in any window of as many cycles as there are registers of all functions, and only once. -/
theorem C66_turns (R m : Nat) (hR : 0 < R) (hm : 0 < m) (n k r : Nat) (hk : k < m) (hr : r < R) :
    ∃ n', (n ≤ n' ∧ n' < n + m * R ∧ n' / R % m = k ∧ n' % R = r) ∧ ∀ j, n ≤ j ∧ j < n + m * R ∧ j / R % m = k ∧ j % R = r → j = n' := by
  have hT : 0 < m * R := Nat.mul_pos hm hR
  have ht : k * R + r < m * R := by
    have : (k + 1) * R ≤ m * R := Nat.mul_le_mul_right R hk
    rw [Nat.add_mul] at this; omega
  have key : ∀ j, (j / R % m = k ∧ j % R = r) ↔ j % (m * R) = k * R + r := by
    intro j
    have e : j % (m * R) = j % R + R * (j / R % m) := by rw [Nat.mul_comm m R, Nat.mod_mul]
    constructor
    · rintro ⟨h1, h2⟩; rw [e, h1, h2, Nat.mul_comm R k, Nat.add_comm]
    · intro h
      rw [e] at h
      have hl := Nat.mod_lt j hR
      have h1 : (j % R + R * (j / R % m)) % R = (k * R + r) % R := by rw [h]
      rw [Nat.add_mul_mod_self_left, Nat.mod_mod, Nat.add_comm (k * R), Nat.add_mul_mod_self_right, Nat.mod_eq_of_lt hr] at h1
      refine ⟨?_, h1⟩
      have h2 : R * (j / R % m) = R * k := by rw [Nat.mul_comm k R] at h; omega
      exact Nat.eq_of_mul_eq_mul_left hR h2
  generalize hTe : m * R = T at *
  generalize hte : k * R + r = t at *
  have hn := Nat.mod_lt n hT
  have hdm := Nat.div_add_mod n T
  -- the next position that is `t` modulo `T`
  refine ⟨if n % T ≤ t then n - n % T + t else n - n % T + T + t, ⟨?_, ?_, ?_⟩, ?_⟩
  · split <;> omega
  · split <;> omega
  · rw [key]
    have e : n - n % T = T * (n / T) := by omega
    split
    · rw [e, Nat.mul_add_mod, Nat.mod_eq_of_lt ht]
    · rw [e, show T * (n / T) + T + t = T * (n / T + 1) + t by rw [Nat.mul_add]; omega, Nat.mul_add_mod, Nat.mod_eq_of_lt ht]
  · rintro j ⟨h1, h2, h3⟩
    rw [key] at h3
    have hj := Nat.div_add_mod j T
    rw [h3] at hj
    have hq : j / T = n / T ∨ j / T = n / T + 1 := by
      have l1 : n / T ≤ j / T := Nat.div_le_div_right h1
      have l2 : j / T ≤ (n + T) / T := Nat.div_le_div_right (by omega)
      rw [Nat.add_div_right _ hT] at l2
      omega
    rcases hq with hq | hq
    · rw [hq] at hj; split <;> omega
    · rw [hq, Nat.mul_add] at hj; split <;> omega

/-- C66: the state of an MSI capability that the theorems above need is that of a new capability, and every configuration write keeps it. -/
theorem C66_msi (c : MsiCap) (h : Spec.MsiOk c) (reg data mask : Nat) (hd : data < 2 ^ 32) (hm : mask < 2 ^ 4) : Spec.MsiOk (c.write reg data mask) := by
  unfold MsiCap.write
  by_cases h0 : reg = 0
  · rw [if_pos h0]; split
    · exact ⟨h.align, h.addr, h.data, h.mask⟩
    · exact h
  rw [if_neg h0]
  by_cases h1 : reg = 1
  · rw [if_pos h1]
    refine ⟨?_, ?_, h.data, h.mask⟩
    · have hal := h.align
      have b : ∀ x : Nat, x % 4 = 0 ↔ x.testBit 0 = false ∧ x.testBit 1 = false := by
        intro x; simp only [Nat.testBit_eq_decide_div_mod_eq]; simp; omega
      show byteMaskUpdate c.addr mask (data &&& 0xfffffffc) none % 4 = 0
      rw [b] at hal ⊢
      have m0 : (0xfffffffc : Nat).testBit 0 = false := by decide
      have m1 : (0xfffffffc : Nat).testBit 1 = false := by decide
      rw [bmu_none, bmu_none, Nat.testBit_and, Nat.testBit_and, m0, m1, hal.1, hal.2]; simp
    · apply Nat.lt_pow_two_of_testBit
      intro i hi
      have hi' : 32 ≤ i := by revert hi; split <;> omega
      show (byteMaskUpdate c.addr mask (data &&& 0xfffffffc) none).testBit i = false
      rw [bmu_none, Nat.testBit_and, tb_big data i 32 hd hi', tb_big c.addr i _ h.addr hi]; simp
  rw [if_neg h1]
  by_cases h2 : reg = 2 ∧ c.cap64 = true
  · rw [if_pos h2]
    have ha := h.addr
    rw [h2.2] at ha; simp only [if_true] at ha
    refine ⟨?_, ?_, h.data, h.mask⟩
    · have hal := h.align
      have b : ∀ x : Nat, x % 4 = 0 ↔ x.testBit 0 = false ∧ x.testBit 1 = false := by
        intro x; simp only [Nat.testBit_eq_decide_div_mod_eq]; simp; omega
      show byteMaskUpdate c.addr (mask <<< 4) (data <<< 32) none % 4 = 0
      rw [b] at hal ⊢
      rw [bmu_none, bmu_none, hal.1, hal.2]; simp
    · show byteMaskUpdate c.addr (mask <<< 4) (data <<< 32) none < 2 ^ (if c.cap64 = true then 64 else 32)
      rw [h2.2]; simp only [if_true]
      apply Nat.lt_pow_two_of_testBit
      intro i hi
      have e : (data <<< 32).testBit i = false := by rw [Nat.testBit_shiftLeft, tb_big data (i - 32) 32 hd (by omega)]; simp
      rw [bmu_none, e, tb_big c.addr i 64 ha hi]; simp
  rw [if_neg h2]
  by_cases h3 : reg = (if c.cap64 = true then 3 else 2)
  · rw [if_pos h3]
    split
    · rename_i he
      refine ⟨h.align, h.addr, ?_, h.mask⟩
      show _ &&& 0xffffffff < 2 ^ (if c.extCap = true then 32 else 16)
      rw [he]; exact Nat.lt_of_le_of_lt Nat.and_le_right (by decide)
    · rename_i he
      refine ⟨h.align, h.addr, ?_, h.mask⟩
      show _ &&& 0xffff < 2 ^ (if c.extCap = true then 32 else 16)
      rw [if_neg he]; exact Nat.lt_of_le_of_lt Nat.and_le_right (by decide)
  rw [if_neg h3]
  by_cases h4 : reg = (if c.cap64 = true then 4 else 3) ∧ c.maskCap = true
  · rw [if_pos h4]
    refine ⟨h.align, h.addr, h.data, ?_⟩
    show _ &&& 0xffffffff < 2 ^ (if c.maskCap = true then 32 else 0)
    rw [h4.2]; exact Nat.lt_of_le_of_lt Nat.and_le_right (by decide)
  · rw [if_neg h4]; exact h

example : Spec.MsiOk {} ∧ Spec.MsiOk { cap64 := true, maskCap := true, extCap := true } :=
  ⟨exMsiOk, ⟨by decide, by decide, by decide, by decide⟩⟩

/-! ### Xilinx -/

private theorem reg_bits (a : Attrs) (reg : Nat) (name : Attrib) (lsb w : Nat)
    (h : (List.range w).all (fun i => CapRegs.pcie.srcs reg (lsb + i) == [.bit name i]) = true) (hlt : a name < 2 ^ w) :
    Spec.bits (CapRegs.pcie.read a reg) lsb w = a name := by
  apply Nat.eq_of_testBit_eq
  intro i
  unfold Spec.bits
  rw [Nat.testBit_mod_two_pow, ← Nat.shiftRight_eq_div_pow, Nat.testBit_shiftRight, RegCap.read_bit]
  by_cases hi : i < w
  · have := List.all_eq_true.1 h i (List.mem_range.2 hi)
    rw [beq_iff_eq.1 this]
    simp [hi, Src.val]
  · rw [tb_big _ i w hlt (by omega)]; simp [hi]

private theorem host_fields (f : CfgFn) (h : Spec.PcieOk f.pcie) : Spec.hostPayload f = f.pcie ("max_payload_size", 0) ∧
    Spec.hostReadReq f = f.pcie ("max_read_request_size", 0) ∧ Spec.hostSpeed f = f.pcie ("current_link_speed", 0) ∧
    Spec.hostWidth f = f.pcie ("negotiated_link_width", 0) :=
  ⟨reg_bits _ _ _ _ _ (by decide +kernel) h.payload, reg_bits _ _ _ _ _ (by decide +kernel) h.readReq,
   reg_bits _ _ _ _ _ (by decide +kernel) h.speed, reg_bits _ _ _ _ _ (by decide +kernel) h.width⟩

/-- C66 (UltraScale): the outputs show the maximum payload and read request size and the link status that the host reads from function 0: the width as a number of lanes, the speed with one bit for each
of 2.5, 5 and 8 GT/s. -/
theorem C66_us (f : CfgFn) (fs : List CfgFn) (h : Spec.PcieOk f.pcie) :
    ∃ s, usStatus (f :: fs) = some s ∧ s.payload = Spec.hostPayload f ∧ s.readReq = Spec.hostReadReq f ∧ s.width = Spec.hostWidth f ∧
      (1 ≤ Spec.hostSpeed f → Spec.hostSpeed f ≤ 3 → s.speed = 2 ^ (Spec.hostSpeed f - 1)) := by
  obtain ⟨e1, e2, e3, e4⟩ := host_fields f h
  refine ⟨_, rfl, e1.symm, e2.symm, e4.symm, ?_⟩
  rw [e3]
  intro h1 h3
  show (1 <<< (f.pcie ("current_link_speed", 0) &&& 3)) >>> 1 = _
  generalize f.pcie ("current_link_speed", 0) = x at *
  have : x = 1 ∨ x = 2 ∨ x = 3 := by omega
  rcases this with rfl | rfl | rfl <;> rfl

/-- C66 (UltraScale+): the same, with codes: the logarithm of the number of lanes, the speed counted from 0 (2.5 GT/s) to 3 (16 GT/s), and two bits for a payload size up to 1024 bytes. -/
theorem C66_usp (f : CfgFn) (fs : List CfgFn) (h : Spec.PcieOk f.pcie) :
    ∃ s, uspStatus (f :: fs) = some s ∧ (Spec.hostPayload f < 4 → s.payload = Spec.hostPayload f) ∧ s.readReq = Spec.hostReadReq f ∧
      (∀ e ≤ 4, Spec.hostWidth f = 2 ^ e → s.width = e) ∧
      (1 ≤ Spec.hostSpeed f → Spec.hostSpeed f ≤ 4 → s.speed + 1 = Spec.hostSpeed f) := by
  obtain ⟨e1, e2, e3, e4⟩ := host_fields f h
  refine ⟨_, rfl, ?_, e2.symm, ?_, ?_⟩
  · rw [e1]; intro hl
    show f.pcie ("max_payload_size", 0) &&& 3 = _
    rw [show (3 : Nat) = 2 ^ 2 - 1 from rfl, Nat.and_two_pow_sub_one_eq_mod]; exact Nat.mod_eq_of_lt hl
  · rw [e4]; intro e he hw
    show min (bitLength (f.pcie ("negotiated_link_width", 0)) - 1) 4 = e
    rw [hw]
    have : e = 0 ∨ e = 1 ∨ e = 2 ∨ e = 3 ∨ e = 4 := by omega
    rcases this with rfl | rfl | rfl | rfl | rfl <;> decide +kernel
  · rw [e3]; intro h1 h4
    show min (f.pcie ("current_link_speed", 0) - 1) 3 + 1 = _
    omega

private theorem fs_bit (fns : List CfgFn) (k i : Nat) : (functionStatus k fns).testBit i =
    (decide (4 * k ≤ i) && (fns[i / 4 - k]?).any fun f => if i % 4 = 3 then f.fn.intDisable else f.fn.busMaster) := by
  induction fns generalizing k with
  | nil => simp [functionStatus]
  | cons f fns ih =>
    rw [functionStatus, Nat.testBit_or, Nat.testBit_or, ih]
    have b7 : ∀ j, (7 <<< (k * 4) : Nat).testBit j = (decide (k * 4 ≤ j) && decide (j < k * 4 + 3)) := by
      intro j
      rw [Nat.testBit_shiftLeft, show (7 : Nat) = 2 ^ 3 - 1 from rfl, Nat.testBit_two_pow_sub_one]
      by_cases hj : k * 4 ≤ j
      · have e : (j - k * 4 < 3) = (j < k * 4 + 3) := by simp; omega
        simp [hj, e]
      · simp [hj]
    have b8 : ∀ j, (8 <<< (k * 4) : Nat).testBit j = decide (j = k * 4 + 3) := by
      intro j
      rw [Nat.testBit_shiftLeft, show (8 : Nat) = 2 ^ 3 from rfl, Nat.testBit_two_pow]
      by_cases hj : k * 4 ≤ j
      · have e : (3 = j - k * 4) = (j = k * 4 + 3) := by simp; omega
        simp [hj, e]
      · simp [hj]; omega
    have s7 : (if f.fn.busMaster = true then 7 <<< (k * 4) else 0 : Nat).testBit i = (f.fn.busMaster && (decide (k * 4 ≤ i) && decide (i < k * 4 + 3))) := by
      cases f.fn.busMaster <;> simp [b7]
    have s8 : (if f.fn.intDisable = true then 8 <<< (k * 4) else 0 : Nat).testBit i = (f.fn.intDisable && decide (i = k * 4 + 3)) := by
      cases f.fn.intDisable <;> simp [b8]
    rw [s7, s8]
    by_cases h1 : i / 4 = k
    · have e0 : i / 4 - k = 0 := by omega
      have e1 : decide (4 * (k + 1) ≤ i) = false := by simp; omega
      have e2 : decide (4 * k ≤ i) = true := by simp; omega
      rw [e0, e1, e2]
      by_cases h3 : i % 4 = 3
      · have e3 : decide (i < k * 4 + 3) = false := by simp; omega
        have e4 : decide (i = k * 4 + 3) = true := by simp; omega
        simp [e3, e4, h3]
      · have e3 : decide (i < k * 4 + 3) = true := by simp; omega
        have e4 : decide (i = k * 4 + 3) = false := by simp; omega
        have e5 : decide (k * 4 ≤ i) = true := by simp; omega
        simp [e3, e4, e5, h3]
    · by_cases h2 : i / 4 < k
      · have e1 : decide (4 * (k + 1) ≤ i) = false := by simp; omega
        have e2 : decide (4 * k ≤ i) = false := by simp; omega
        have e3 : decide (k * 4 ≤ i) = false := by simp; omega
        have e4 : decide (i = k * 4 + 3) = false := by simp; omega
        simp [e1, e2, e3, e4]
      · have e1 : decide (4 * (k + 1) ≤ i) = true := by simp; omega
        have e2 : decide (4 * k ≤ i) = true := by simp; omega
        have e3 : decide (i < k * 4 + 3) = false := by simp; omega
        have e4 : decide (i = k * 4 + 3) = false := by simp; omega
        have e5 : i / 4 - k = (i / 4 - (k + 1)) + 1 := by omega
        rw [e5]
        simp [e1, e2, e3, e4]

/-- C66 (both Xilinx models): `cfg_function_status` has four bits for each function; bit 2 is bus master enable and bit 3 interrupt disable, as the host reads them from the command register; there are no
bits beyond the functions. Missing: bits 0 and 1, which should be I/O and memory space enable (`C66_function_status_violated`). -/
theorem C66_function_status_partial (fns : List CfgFn) (k : Nat) :
    (functionStatus 0 fns).testBit (4 * k + 2) = (fns[k]?).any (Spec.HostReg.bit · 2 .command) ∧
    (functionStatus 0 fns).testBit (4 * k + 3) = (fns[k]?).any (Spec.HostReg.bit · 10 .command) ∧
    (∀ i, 4 * fns.length ≤ i → (functionStatus 0 fns).testBit i = false) ∧
    (∀ s, usStatus fns = some s ∨ uspStatus fns = some s → s.function = functionStatus 0 fns) := by
  have c2 : ∀ f : CfgFn, Spec.HostReg.bit f 2 .command = f.fn.busMaster := by
    intro f; simp only [Spec.HostReg.bit]; rw [cmd_bits _ _ _ (by omega)]; simp
  have c10 : ∀ f : CfgFn, Spec.HostReg.bit f 10 .command = f.fn.intDisable := by
    intro f; simp only [Spec.HostReg.bit]; rw [cmd_bits _ _ _ (by omega)]; simp
  refine ⟨?_, ?_, ?_, ?_⟩
  · rw [fs_bit, show (4 * k + 2) / 4 - 0 = k by omega, show (4 * k + 2) % 4 = 2 by omega]
    simp only [c2]; simp
  · rw [fs_bit, show (4 * k + 3) / 4 - 0 = k by omega, show (4 * k + 3) % 4 = 3 by omega]
    simp only [c10]; simp
  · intro i hi
    rw [fs_bit, List.getElem?_eq_none (by omega)]; simp
  · intro s h
    cases fns with
    | nil => rcases h with h | h <;> cases h
    | cons f fs => rcases h with h | h <;> (cases h; rfl)

/-- Bits 0 and 1 show bus master enable instead of I/O and memory space enable: here memory space is enabled and bus mastering is not. -/
theorem C66_function_status_violated : ∃ f s, Spec.HostReg.bit f 1 .command = true ∧ usStatus [f] = some s ∧ s.function.testBit 1 = false ∧ uspStatus [f] = some s :=
  ⟨{ exFnOf [] [] {} with fn := { memEnable := true, caps := () } }, ⟨0, 0, 0, 0, 0, 0⟩, by decide +kernel, by decide +kernel, by decide +kernel, by decide +kernel⟩

private theorem rcb_bit (fns : List CfgFn) (k i : Nat) : (rcbStatus k fns).testBit i = (decide (k ≤ i) && (fns[i - k]?).any fun f => f.pcie ("read_completion_boundary", 0) != 0) := by
  induction fns generalizing k with
  | nil => simp [rcbStatus]
  | cons f fns ih =>
    rw [rcbStatus, Nat.testBit_or, ih]
    have s1 : (if f.pcie ("read_completion_boundary", 0) = 0 then 0 else 1 <<< k : Nat).testBit i = ((f.pcie ("read_completion_boundary", 0) != 0) && decide (i = k)) := by
      by_cases h : f.pcie ("read_completion_boundary", 0) = 0
      · simp [h]
      · have := tb_bool true k i
        simp only [Bool.toNat_true] at this
        simp [h, this]
    rw [s1]
    by_cases h1 : i = k
    · subst h1; simp
    · by_cases h2 : k ≤ i
      · have e1 : decide (k + 1 ≤ i) = true := by simp; omega
        have e5 : i - k = (i - (k + 1)) + 1 := by omega
        rw [e5]; simp [e1, h1, h2]
      · have e1 : decide (k + 1 ≤ i) = false := by simp; omega
        simp [e1, h1, h2]

/-- C66 (both Xilinx models): bit `k` of `cfg_rcb_status` is the read completion boundary that the host reads from the link control register of function `k`. -/
theorem C66_rcb (fns : List CfgFn) (s : UsStatus) (h : usStatus fns = some s ∨ uspStatus fns = some s) (k : Nat) :
    s.rcb.testBit k = (fns[k]?).any fun f => (CapRegs.pcie.read f.pcie 4).testBit 3 := by
  have e : s.rcb = rcbStatus 0 fns := by
    cases fns with
    | nil => rcases h with h | h <;> cases h
    | cons f fs => rcases h with h | h <;> (cases h; rfl)
  have hr : ∀ f : CfgFn, (CapRegs.pcie.read f.pcie 4).testBit 3 = (f.pcie ("read_completion_boundary", 0) != 0) := by
    intro f
    rw [RegCap.read_bit, show CapRegs.pcie.srcs 4 3 = [.truth ("read_completion_boundary", 0)] by decide +kernel]
    simp [Src.val]
  rw [e, rcb_bit]
  simp [hr]

private def numOk (a : Attrib) (M : Nat) (w : WrS) : Bool := w.key != a || match w with
  | .num _ _ _ m => decide (m < M)
  | _ => false

private theorem execWr_num (a : Attrib) (M data mask : Nat) (l : List WrS) (h : l.all (numOk a M) = true) (s : Attrs) (hs : s a < M) : execWr data mask s l a < M := by
  unfold execWr
  induction l generalizing s with
  | nil => exact hs
  | cons w l ih =>
    simp only [List.all_cons, Bool.and_eq_true] at h
    rw [List.foldl_cons]
    apply ih h.2
    by_cases hk : w.key = a
    · cases w with
      | num be f sh m =>
        have hm : m < M := by have := h.1; simp [numOk, hk] at this; exact this
        have hk' : f = a := hk
        subst hk'
        show (if mask &&& be ≠ 0 then s.set f ((data >>> sh) &&& m) else s) f < M
        split
        · rw [set_same]; exact Nat.lt_of_le_of_lt Nat.and_le_right hm
        · exact hs
      | _ => have := h.1; simp [numOk, hk] at this
    · rw [exec_other _ _ _ _ _ hk]; exact hs

/-- C66: configuration writes keep the attributes of the PCI Express capability in the ranges that the theorems about the Xilinx models need. -/
theorem C66_pcie (a : Attrs) (h : Spec.PcieOk a) (reg data mask : Nat) : Spec.PcieOk (CapRegs.pcie.write a reg data mask) := by
  by_cases hr : 19 ≤ reg
  · rw [write_none CapRegs.pcie Spec.pcieMap pcie_ends a reg data mask hr]; exact h
  · have tab : ∀ x M, (List.range 19).all (fun r => (CapRegs.pcie.wr r).all (numOk x M)) = true → (CapRegs.pcie.wr reg).all (numOk x M) = true :=
      fun x M ht => List.all_eq_true.1 ht reg (List.mem_range.2 (by omega))
    exact ⟨execWr_num _ _ _ _ _ (tab _ _ (by decide +kernel)) _ h.payload, execWr_num _ _ _ _ _ (tab _ _ (by decide +kernel)) _ h.readReq,
      execWr_num _ _ _ _ _ (tab _ _ (by decide +kernel)) _ h.speed, execWr_num _ _ _ _ _ (tab _ _ (by decide +kernel)) _ h.width⟩

/-! ### The hypotheses are satisfiable -/

private def exCfgFn : CfgFn :=
  exFnOf [("max_payload_size", 1), ("max_read_request_size", 2), ("current_link_speed", 3), ("negotiated_link_width", 8), ("read_completion_boundary", 1)]
    [("surprise_down_error_mask", 1)] { enable := true, mme := 3, cap64 := true, maskCap := true, addr := 0x180000000, data := 0x40, maskBits := 0x80000001 }

example : Spec.Functions 2 (fun n => if n < 5 then [exFnOf [] [] {}, exCfgFn] else [exCfgFn, exCfgFn]) := by
  have h1 : Spec.MsiOk exCfgFn.msi := ⟨by decide, by decide, by decide, by decide⟩
  refine ⟨by decide, fun n => ?_⟩
  by_cases h : n < 5
  · simp only [h, if_true]
    exact ⟨rfl, fun f hf => by rcases List.mem_cons.1 hf with rfl | hf; exact exMsiOk; rcases List.mem_singleton.1 hf with rfl; exact h1⟩
  · simp only [h, if_false]
    exact ⟨rfl, fun f hf => by rcases List.mem_cons.1 hf with rfl | hf; exact h1; rcases List.mem_singleton.1 hf with rfl; exact h1⟩

example : (cfgOutAt htileOut (fun _ => [exFnOf [] [] {}, exCfgFn]) 14 = some ⟨0, 4, 1⟩) ∧ (cfgOutAt ptileOut (fun _ => [exCfgFn]) 7 = some ⟨0, 7, 0x8000⟩) ∧
    (cfgOutAt htileOut (fun _ => [exCfgFn]) 0 = some ⟨0, 0, 0x58091⟩) ∧ (cfgOutAt ltileOut (fun _ => [exCfgFn]) 5 = some ⟨0, 5, 0x80000001⟩) := by
  decide +kernel

example : Spec.PcieOk exCfgFn.pcie ∧ usStatus [exCfgFn] = some ⟨8, 4, 1, 2, 7, 1⟩ ∧ uspStatus [exCfgFn] = some ⟨3, 2, 1, 2, 7, 1⟩ :=
  ⟨⟨by decide +kernel, by decide +kernel, by decide +kernel, by decide +kernel⟩, by decide +kernel, by decide +kernel⟩

end Pcie
