import Verif.Model.CapRegs
import Verif.Spec.CapRegs
import Verif.Lemmas.Config
/-
Lemmas for C51: where each bit of a register comes from and what a write does to it, computed from the statements.
-/
namespace Pcie
namespace CapRegs

/-- Where a bit of a register comes from. -/
inductive Src | one | bit (f : Attrib) (k : Nat) | truth (f : Attrib)
deriving DecidableEq

def Src.val (s : Attrs) : Src → Bool
  | one => true
  | bit f k => (s f).testBit k
  | truth f => s f != 0

def RdS.srcAt (i : Nat) : RdS → Option Src
  | const v => if v.testBit i then some .one else none
  | flag f k => if i = k then some (.truth f) else none
  | num f m k => if k ≤ i ∧ m.testBit (i - k) = true then some (.bit f (i - k)) else none
  | shr f m k => if m.testBit (i + k) = true then some (.bit f (i + k)) else none

theorem RdS.eval_bit (s : Attrs) (r : RdS) (i : Nat) : (r.eval s).testBit i = (r.srcAt i).any (Src.val s) := by
  cases r with
  | const v => by_cases h : v.testBit i = true <;> simp [RdS.eval, RdS.srcAt, h, Src.val]
  | flag f k =>
    by_cases hs : s f = 0
    · by_cases hi : i = k <;> simp [RdS.eval, RdS.srcAt, hs, hi, Src.val]
    · by_cases hi : i = k
      · simp [RdS.eval, RdS.srcAt, hs, hi, Src.val]
      · simp only [RdS.eval, RdS.srcAt, hs, hi, if_false, Option.any_none, Nat.one_shiftLeft]
        rw [Nat.testBit_two_pow_of_ne (fun h => hi h.symm)]
  | num f m k =>
    by_cases h1 : k ≤ i
    · by_cases h2 : m.testBit (i - k) = true <;> simp [RdS.eval, RdS.srcAt, Nat.testBit_shiftLeft, Nat.testBit_and, h1, h2, Src.val]
    · simp [RdS.eval, RdS.srcAt, Nat.testBit_shiftLeft, h1]
  | shr f m k =>
    by_cases h2 : m.testBit (i + k) = true <;> simp [RdS.eval, RdS.srcAt, Nat.testBit_shiftRight, Nat.testBit_and, h2, Src.val, Nat.add_comm k i]

theorem evalRd_bit (s : Attrs) (l : List RdS) (i : Nat) : (evalRd s l).testBit i = (l.filterMap (RdS.srcAt i)).any (Src.val s) := by
  have : ∀ v : Nat, (l.foldl (fun (v : Nat) (r : RdS) => v ||| r.eval s) v).testBit i = (v.testBit i || (l.filterMap (RdS.srcAt i)).any (Src.val s)) := by
    induction l with
    | nil => intro v; simp
    | cons r l ih =>
      intro v
      rw [List.foldl_cons, ih, Nat.testBit_or, RdS.eval_bit]
      cases h : r.srcAt i <;> simp [List.filterMap_cons, h, Bool.or_assoc]
  simp [evalRd, this]

/-- The statements of the headers. -/
def hdrExt : List RdS := [.num ("next_cap", 0) 0xfff 20, .num ("cap_ver", 0) 0xf 16, .num ("cap_id", 0) 0xffff 0]
def hdr : List RdS := [.num ("next_cap", 0) 0xff 8, .num ("cap_id", 0) 0xff 0]

def RegCap.srcs (c : RegCap) (reg i : Nat) : List Src :=
  if c.ext then
    if reg = 0 then hdrExt.filterMap (RdS.srcAt i) else (c.rd reg).filterMap (RdS.srcAt i)
  else if reg = 0 then
    (if 16 ≤ i ∧ i < 32 then (c.rd reg).filterMap (RdS.srcAt i) else []) ++ hdr.filterMap (RdS.srcAt i)
  else (c.rd reg).filterMap (RdS.srcAt i)

theorem hi16 (i : Nat) : (0xffff0000 : Nat).testBit i = (decide (16 ≤ i) && decide (i < 32)) := by
  have := tb_field (2 ^ 16 - 1) 16 16 i
  have e : ((2 ^ 16 - 1 &&& 2 ^ 16 - 1) <<< 16 : Nat) = 0xffff0000 := by decide
  rw [e] at this
  rw [this]
  by_cases h1 : 16 ≤ i <;> by_cases h2 : i < 32
  · have : (2 ^ 16 - 1 : Nat).testBit (i - 16) = true := by rw [Nat.testBit_two_pow_sub_one]; simp; omega
    rw [this]; simp [h1, h2]
  · simp [h2]
  · simp [h1]
  · omega

theorem RegCap.read_bit (c : RegCap) (s : Attrs) (reg i : Nat) : (c.read s reg).testBit i = (c.srcs reg i).any (Src.val s) := by
  unfold RegCap.read RegCap.srcs
  by_cases he : c.ext = true
  · rw [if_pos he, if_pos he]
    by_cases h0 : reg = 0
    · rw [if_pos h0, if_pos h0, ← evalRd_bit]; simp [evalRd, hdrExt, RdS.eval]
    · rw [if_neg h0, if_neg h0, evalRd_bit]
  · rw [if_neg he, if_neg he]
    by_cases h0 : reg = 0
    · rw [if_pos h0, if_pos h0, List.any_append, ← evalRd_bit s hdr, Nat.testBit_or, Nat.testBit_or, Nat.testBit_and, hi16]
      have : (evalRd s hdr).testBit i = (((s ("next_cap", 0) &&& 0xff) <<< 8).testBit i || (s ("cap_id", 0) &&& 0xff).testBit i) := by
        simp [evalRd, hdr, RdS.eval, Nat.testBit_or]
      rw [this, Bool.or_assoc]
      congr 1
      by_cases h : 16 ≤ i ∧ i < 32
      · simp [h, evalRd_bit]
      · rw [if_neg h]
        by_cases h1 : 16 ≤ i
        · have : ¬ i < 32 := fun h2 => h ⟨h1, h2⟩
          simp [this]
        · simp [h1]
    · rw [if_neg h0, if_neg h0, evalRd_bit]

/-- Where the specification says that the bit comes from. -/
def fieldSrc (f : Spec.RegField) (i : Nat) : Src := if f.truth then .truth f.name else .bit f.name (i - f.lsb)

def specSrcs (m : Spec.RegMap) (reg i : Nat) : List Src :=
  match (m reg).find? (·.covers i) with
  | some f => [fieldSrc f i]
  | none => []

theorem fieldSrc_val (f : Spec.RegField) (s : Attrs) (i : Nat) : (fieldSrc f i).val s = f.bitOf s i := by
  unfold fieldSrc Spec.RegField.bitOf
  by_cases h : f.truth = true <;> simp [h, Src.val]

theorem specSrcs_val (m : Spec.RegMap) (s : Attrs) (reg i : Nat) : (specSrcs m reg i).any (Src.val s) = m.reported s reg i := by
  unfold specSrcs Spec.RegMap.reported
  cases (m reg).find? (·.covers i) with
  | none => rfl
  | some f => simp [fieldSrc_val]

/-- The statements reach no bit above 31. -/
def RdS.fits : RdS → Bool
  | const v => decide (v < 2 ^ 32)
  | flag _ k => decide (k < 32)
  | num _ m k => decide (m <<< k < 2 ^ 32)
  | shr _ m _ => decide (m < 2 ^ 32)

theorem RdS.fits_src (r : RdS) (i : Nat) (hi : 32 ≤ i) (h : r.fits = true) : r.srcAt i = none := by
  have hp : 2 ^ 32 ≤ 2 ^ i := Nat.pow_le_pow_right (by omega) hi
  cases r with
  | const v =>
    have hv : v < 2 ^ 32 := by simpa [RdS.fits] using h
    simp [RdS.srcAt, Nat.testBit_lt_two_pow (Nat.lt_of_lt_of_le hv hp)]
  | flag f k =>
    have hv : k < 32 := by simpa [RdS.fits] using h
    simp [RdS.srcAt]; omega
  | num f m k =>
    have hv : m <<< k < 2 ^ 32 := by simpa only [RdS.fits, decide_eq_true_eq] using h
    have := Nat.testBit_lt_two_pow (Nat.lt_of_lt_of_le hv hp)
    rw [Nat.testBit_shiftLeft] at this
    by_cases hk : k ≤ i
    · simp [hk] at this; simp [RdS.srcAt, this]
    · simp [RdS.srcAt, hk]
  | shr f m k =>
    have hv : m < 2 ^ 32 := by simpa [RdS.fits] using h
    have hp2 : 2 ^ 32 ≤ 2 ^ (i + k) := Nat.pow_le_pow_right (by omega) (by omega)
    simp [RdS.srcAt, Nat.testBit_lt_two_pow (Nat.lt_of_lt_of_le hv hp2)]

theorem filterMap_fits (l : List RdS) (i : Nat) (hi : 32 ≤ i) (h : l.all RdS.fits = true) : l.filterMap (RdS.srcAt i) = [] := by
  rw [List.filterMap_eq_nil_iff]
  intro r hr
  exact r.fits_src i hi (by rw [List.all_eq_true] at h; exact h r hr)

theorem srcs_fits (c : RegCap) (reg i : Nat) (hi : 32 ≤ i) (h : (c.rd reg).all RdS.fits = true) : c.srcs reg i = [] := by
  have h1 : hdrExt.filterMap (RdS.srcAt i) = [] := filterMap_fits _ _ hi (by decide)
  have h2 : hdr.filterMap (RdS.srcAt i) = [] := filterMap_fits _ _ hi (by decide)
  simp [RegCap.srcs, h1, h2, filterMap_fits _ _ hi h]

theorem specSrcs_fits (m : Spec.RegMap) (reg i : Nat) (hi : 32 ≤ i) (h : (m reg).all (fun f => decide (f.lsb + f.width ≤ 32)) = true) :
    (m reg).find? (·.covers i) = none := by
  rw [List.find?_eq_none]
  intro f hf
  rw [List.all_eq_true] at h
  have := h f hf
  simp only [decide_eq_true_eq] at this
  simp [Spec.RegField.covers]; omega

/-- What a statement does to a bit of an attribute. -/
inductive BitAct | keep | take (be j : Nat) | clr (be j : Nat) | bad
deriving DecidableEq

def BitAct.eff (data mask : Nat) (b : Bool) : BitAct → Bool
  | keep => b
  | take be j => if mask &&& be ≠ 0 then data.testBit j else b
  | clr be j => if mask &&& be ≠ 0 then b && !data.testBit j else b
  | bad => b

def WrS.key : WrS → Attrib
  | flag _ f _ => f
  | num _ f _ _ => f
  | clear _ f _ => f
  | merge _ f _ _ _ => f
  | clearMask f => f

def WrS.act (truth : Bool) (k : Nat) : WrS → BitAct
  | flag be _ bit => if truth then .take be bit else .bad
  | num be _ shift m => if !truth && m.testBit k then .take be (shift + k) else .bad
  | clear be _ bit => if truth then .clr be bit else .bad
  | merge be _ keep shift m =>
    if truth then .bad
    else if m.testBit k && !keep.testBit k then .take be (shift + k)
    else if !m.testBit k && keep.testBit k then .keep else .bad
  | clearMask _ => if !truth && decide (k < 32) then .clr (1 <<< (k / 8)) k else .bad

/-- A bit of an attribute. -/
def obs (s : Attrs) (f : Attrib) (truth : Bool) (k : Nat) : Bool := if truth then s f != 0 else (s f).testBit k

theorem set_other (s : Attrs) (f g : Attrib) (v : Nat) (h : g ≠ f) : (s.set f v) g = s g := if_neg h
theorem set_same (s : Attrs) (f : Attrib) (v : Nat) : (s.set f v) f = v := if_pos rfl

theorem exec_other (data mask : Nat) (s : Attrs) (w : WrS) (g : Attrib) (h : w.key ≠ g) : w.exec data mask s g = s g := by
  have h' : g ≠ w.key := fun e => h e.symm
  cases w with
  | flag be f bit => simp only [WrS.exec]; split; exacts [set_other _ _ _ _ h', rfl]
  | num be f sh m => simp only [WrS.exec]; split; exacts [set_other _ _ _ _ h', rfl]
  | clear be f bit => simp only [WrS.exec]; split; split; exacts [set_other _ _ _ _ h', rfl, rfl]
  | merge be f k sh m => simp only [WrS.exec]; split; exacts [set_other _ _ _ _ h', rfl]
  | clearMask f => exact set_other _ _ _ _ h'

theorem data_bit (d b : Nat) : (d &&& 1 <<< b ≠ 0) ↔ d.testBit b = true := by
  rw [Nat.one_shiftLeft]
  constructor
  · intro h
    cases hd : d.testBit b
    · exfalso
      apply h
      apply Nat.eq_of_testBit_eq
      intro j
      rw [Nat.testBit_and, Nat.zero_testBit]
      by_cases hj : b = j
      · rw [← hj, hd, Bool.false_and]
      · rw [Nat.testBit_two_pow_of_ne hj, Bool.and_false]
    · rfl
  · intro h e
    have : (d &&& 2 ^ b).testBit b = true := by rw [Nat.testBit_and, h, Nat.testBit_two_pow_self]; rfl
    rw [e] at this
    simp at this

theorem ff_bit (k : Nat) : (0xffffffff : Nat).testBit k = decide (k < 32) := by
  rw [show (0xffffffff : Nat) = 2 ^ 32 - 1 by decide, Nat.testBit_two_pow_sub_one]

theorem exec_act (data mask : Nat) (s : Attrs) (w : WrS) (t : Bool) (k : Nat) (h : w.act t k ≠ .bad) :
    obs (w.exec data mask s) w.key t k = (w.act t k).eff data mask (obs s w.key t k) := by
  cases w with
  | flag be f bit =>
    cases t
    · exact absurd rfl h
    · simp only [WrS.exec, WrS.act, WrS.key, BitAct.eff, if_true, obs]
      by_cases hm : mask &&& be ≠ 0
      · rw [if_pos hm, if_pos hm, set_same]
        cases hd : data.testBit bit
        · rw [if_neg (fun e => by rw [(data_bit _ _).mp e] at hd; exact absurd hd (by decide))]; rfl
        · rw [if_pos ((data_bit _ _).mpr hd)]; rfl
      · rw [if_neg hm, if_neg hm]
  | num be f sh m =>
    simp only [WrS.act] at h
    by_cases hc : (!t && m.testBit k) = true
    · simp only [Bool.and_eq_true, Bool.not_eq_true'] at hc
      obtain ⟨rfl, hk⟩ := hc
      simp only [WrS.exec, WrS.act, WrS.key, hk, Bool.not_false, Bool.and_self, if_true, BitAct.eff, obs, Bool.false_eq_true, if_false]
      by_cases hm : mask &&& be ≠ 0
      · rw [if_pos hm, if_pos hm, set_same, Nat.testBit_and, Nat.testBit_shiftRight, hk, Bool.and_true]
      · rw [if_neg hm, if_neg hm]
    · rw [if_neg hc] at h; exact absurd rfl h
  | clear be f bit =>
    cases t
    · exact absurd rfl h
    · simp only [WrS.exec, WrS.act, WrS.key, BitAct.eff, if_true, obs]
      by_cases hm : mask &&& be ≠ 0
      · rw [if_pos hm, if_pos hm]
        cases hd : data.testBit bit
        · rw [if_neg (fun e => by rw [(data_bit _ _).mp e] at hd; exact absurd hd (by decide))]; simp
        · rw [if_pos ((data_bit _ _).mpr hd), set_same]; simp
      · rw [if_neg hm, if_neg hm]
  | merge be f kp sh m =>
    cases t
    · simp only [WrS.exec, WrS.act, WrS.key, Bool.false_eq_true, if_false, obs] at h ⊢
      by_cases h1 : (m.testBit k && !kp.testBit k) = true
      · rw [if_pos h1] at h ⊢
        simp only [Bool.and_eq_true, Bool.not_eq_true'] at h1
        simp only [BitAct.eff]
        by_cases hm : mask &&& be ≠ 0
        · rw [if_pos hm, if_pos hm, set_same, Nat.testBit_or, Nat.testBit_and, Nat.testBit_and, Nat.testBit_shiftRight, h1.1, h1.2]; simp
        · rw [if_neg hm, if_neg hm]
      · rw [if_neg h1] at h ⊢
        by_cases h2 : (!m.testBit k && kp.testBit k) = true
        · rw [if_pos h2] at h ⊢
          simp only [Bool.and_eq_true, Bool.not_eq_true'] at h2
          simp only [BitAct.eff]
          by_cases hm : mask &&& be ≠ 0
          · rw [if_pos hm, set_same, Nat.testBit_or, Nat.testBit_and, Nat.testBit_and, Nat.testBit_shiftRight, h2.1, h2.2]; simp
          · rw [if_neg hm]
        · rw [if_neg h2] at h; exact absurd rfl h
    · exact absurd rfl h
  | clearMask f =>
    simp only [WrS.act] at h
    by_cases hc : (!t && decide (k < 32)) = true
    · simp only [Bool.and_eq_true, Bool.not_eq_true', decide_eq_true_eq] at hc
      obtain ⟨rfl, hk⟩ := hc
      simp only [WrS.exec, WrS.act, WrS.key, hk, Bool.not_false, decide_true, Bool.and_self, if_true, BitAct.eff, obs, Bool.false_eq_true, if_false,
        set_same, Nat.testBit_and, bmu_none, andNot_testBit, ff_bit, Bool.and_true]
      by_cases hm : mask.testBit (k / 8) = true
      · rw [if_pos hm, if_pos ((data_bit _ _).mpr hm)]
      · rw [if_neg hm, if_neg (fun e => hm ((data_bit _ _).mp e))]
    · rw [if_neg hc] at h; exact absurd rfl h

theorem execWr_other (data mask : Nat) (l : List WrS) (g : Attrib) (h : ∀ w ∈ l, w.key ≠ g) :
    ∀ s, execWr data mask s l g = s g := by
  induction l with
  | nil => intro s; rfl
  | cons w l ih =>
    intro s
    rw [execWr, List.foldl_cons, ← execWr, ih (fun w hw => h w (List.mem_cons_of_mem _ hw)), exec_other _ _ _ _ _ (h w (List.mem_cons_self ..))]

/-- What the write statements do to the bit, in order. -/
def acts (l : List WrS) (f : Attrib) (t : Bool) (k : Nat) : List BitAct := (l.filter (fun w => w.key == f)).map (WrS.act t k)

theorem execWr_acts (data mask : Nat) (f : Attrib) (t : Bool) (k : Nat) (l : List WrS) (h : (acts l f t k).all (· != .bad) = true) :
    ∀ s, obs (execWr data mask s l) f t k = (acts l f t k).foldl (fun b a => a.eff data mask b) (obs s f t k) := by
  induction l with
  | nil => intro s; rfl
  | cons w l ih =>
    intro s
    by_cases hw : w.key = f
    · have e : acts (w :: l) f t k = w.act t k :: acts l f t k := by simp [acts, hw]
      rw [e] at h ⊢
      rw [List.all_cons, Bool.and_eq_true] at h
      rw [execWr, List.foldl_cons, ← execWr, ih h.2, List.foldl_cons]
      subst hw
      rw [exec_act _ _ _ _ _ _ (by simpa using h.1)]
    · have e : acts (w :: l) f t k = acts l f t k := by simp [acts, hw]
      rw [e] at h ⊢
      rw [execWr, List.foldl_cons, ← execWr, ih h]
      congr 1
      simp only [obs, exec_other _ _ _ _ _ hw]

theorem foldl_keep (data mask : Nat) (l : List BitAct) :
    ∀ b, l.foldl (fun b a => a.eff data mask b) b = (l.filter (· != .keep)).foldl (fun b a => a.eff data mask b) b := by
  induction l with
  | nil => intro b; rfl
  | cons a l ih =>
    intro b
    by_cases ha : a = .keep
    · subst ha; rw [List.foldl_cons, ih]; rfl
    · rw [List.foldl_cons, ih, List.filter_cons_of_pos (by simpa using ha), List.foldl_cons]

/-- What the specification says that a write does to the bit. -/
def specAct (acc : Spec.Access) (i : Nat) : List BitAct :=
  match acc with
  | .ro => []
  | .rw => [.take (1 <<< (i / 8)) i]
  | .w1c => [.clr (1 <<< (i / 8)) i]

/-- The bit is shown as specified. -/
def rdOk (c : RegCap) (m : Spec.RegMap) (reg i : Nat) : Bool := c.srcs reg i == specSrcs m reg i

/-- The bit is written as specified. -/
def wrOk (c : RegCap) (m : Spec.RegMap) (reg i : Nat) : Bool :=
  match (m reg).find? (·.covers i) with
  | some f => (acts (c.wr reg) f.name f.truth (i - f.lsb)).all (· != .bad) &&
      (acts (c.wr reg) f.name f.truth (i - f.lsb)).filter (· != .keep) == specAct f.acc i
  | none => true

theorem read_of_rdOk (c : RegCap) (m : Spec.RegMap) (s : Attrs) (reg i : Nat) (h : rdOk c m reg i = true) :
    (c.read s reg).testBit i = m.reported s reg i := by
  rw [c.read_bit, ← specSrcs_val]
  rw [rdOk, beq_iff_eq] at h
  rw [h]

theorem write_of_wrOk (c : RegCap) (m : Spec.RegMap) (s : Attrs) (reg data mask i : Nat) (h : rdOk c m reg i = true) (hw : wrOk c m reg i = true) :
    Spec.WrittenAt (m.hasAcc .rw reg) (m.hasAcc .w1c reg) (c.read s reg) (c.read (c.write s reg data mask) reg) data mask i := by
  unfold Spec.WrittenAt
  rw [read_of_rdOk c m _ reg i h, read_of_rdOk c m _ reg i h]
  unfold wrOk at hw
  unfold Spec.RegMap.reported Spec.RegMap.hasAcc
  cases hf : (m reg).find? (·.covers i) with
  | none => simp
  | some f =>
    rw [hf] at hw
    simp only [Bool.and_eq_true, beq_iff_eq] at hw
    obtain ⟨h1, h2⟩ := hw
    have e : ∀ s : Attrs, f.bitOf s i = obs s f.name f.truth (i - f.lsb) := fun s => rfl
    simp only [e]
    rw [RegCap.write, execWr_acts data mask _ _ _ _ h1 s, foldl_keep, h2]
    have hm : (mask &&& 1 <<< (i / 8) ≠ 0) ↔ mask.testBit (i / 8) = true := data_bit _ _
    cases ha : f.acc with
    | ro => simp [specAct]
    | rw =>
      simp only [specAct, List.foldl_cons, List.foldl_nil, BitAct.eff]
      by_cases hb : mask.testBit (i / 8) = true
      · rw [if_pos (hm.mpr hb), if_pos hb]; rfl
      · rw [if_neg (fun e => hb (hm.mp e)), if_neg hb]
    | w1c =>
      simp only [specAct, List.foldl_cons, List.foldl_nil, BitAct.eff]
      by_cases hb : mask.testBit (i / 8) = true
      · rw [if_pos (hm.mpr hb), if_pos hb]; rfl
      · rw [if_neg (fun e => hb (hm.mp e)), if_neg hb]

def RdS.key : RdS → Option Attrib
  | const _ => none
  | flag f _ => some f
  | num f _ _ => some f
  | shr f _ _ => some f

theorem RdS.eval_congr (s s' : Attrs) (r : RdS) (h : ∀ f, r.key = some f → s' f = s f) : r.eval s' = r.eval s := by
  cases r with
  | const v => rfl
  | flag f k => simp only [RdS.eval, h f rfl]
  | num f m k => simp only [RdS.eval, h f rfl]
  | shr f m k => simp only [RdS.eval, h f rfl]

theorem evalRd_congr (s s' : Attrs) (l : List RdS) (h : ∀ r ∈ l, ∀ f, r.key = some f → s' f = s f) : evalRd s' l = evalRd s l := by
  unfold evalRd
  generalize 0 = v
  induction l generalizing v with
  | nil => rfl
  | cons r l ih =>
    rw [List.foldl_cons, List.foldl_cons, RdS.eval_congr s s' r (h r (List.mem_cons_self ..))]
    exact ih (fun r hr => h r (List.mem_cons_of_mem _ hr)) _

/-- The write statements leave the attributes of the header and of the read statements alone. -/
def apart (w : List WrS) (r : List RdS) : Bool := w.all fun w => (r ++ hdrExt).all fun r => r.key != some w.key

theorem read_apart (c : RegCap) (s : Attrs) (reg reg' data mask : Nat) (h : apart (c.wr reg) (c.rd reg') = true) :
    c.read (c.write s reg data mask) reg' = c.read s reg' := by
  have key : ∀ r ∈ c.rd reg' ++ hdrExt, ∀ f, r.key = some f → c.write s reg data mask f = s f := by
    intro r hr f hf
    apply execWr_other
    intro w hw e
    rw [apart, List.all_eq_true] at h
    have := h w hw
    rw [List.all_eq_true] at this
    have := this r hr
    rw [hf, e] at this
    simp at this
  have h1 := evalRd_congr s (c.write s reg data mask) (c.rd reg') (fun r hr => key r (List.mem_append_left _ hr))
  have k := fun r hr => key r (List.mem_append_right _ hr)
  have k1 := k (.num ("next_cap", 0) 0xfff 20) (by simp [hdrExt]) _ rfl
  have k2 := k (.num ("cap_ver", 0) 0xf 16) (by simp [hdrExt]) _ rfl
  have k3 := k (.num ("cap_id", 0) 0xffff 0) (by simp [hdrExt]) _ rfl
  unfold RegCap.read
  rw [h1, k1, k2, k3]

end CapRegs
end Pcie

namespace Pcie
namespace CapRegs

/-- The table check: every bit of the first 19 registers that is not listed. -/
def tabOk (ok : Nat → Nat → Bool) (dev : List (Nat × Nat)) : Bool :=
  (List.range 19).all fun reg => (List.range 32).all fun i => decide ((reg, i) ∈ dev) || ok reg i

def tabFits (c : RegCap) (m : Spec.RegMap) : Bool :=
  (List.range 19).all fun reg => (c.rd reg).all RdS.fits && (m reg).all (fun f => decide (f.lsb + f.width ≤ 32))

/-- The registers end. -/
def Ends (c : RegCap) (m : Spec.RegMap) : Prop := ∀ reg, 19 ≤ reg → c.rd reg = [] ∧ c.wr reg = [] ∧ m reg = []

theorem tabOk_rd (c : RegCap) (m : Spec.RegMap) (dev : List (Nat × Nat)) (h : tabOk (rdOk c m) dev = true) (hf : tabFits c m = true) (he : Ends c m)
    (reg i : Nat) (hx : (reg, i) ∉ dev) : rdOk c m reg i = true := by
  by_cases hr : 19 ≤ reg
  · obtain ⟨h1, _, h3⟩ := he reg hr
    have h0 : reg ≠ 0 := by omega
    simp [rdOk, RegCap.srcs, specSrcs, h1, h3, h0]
  · simp only [tabFits, List.all_eq_true, List.mem_range, Bool.and_eq_true] at hf
    have hf := hf reg (by omega)
    by_cases hi : 32 ≤ i
    · rw [rdOk, srcs_fits c reg i hi (List.all_eq_true.mpr hf.1)]
      simp only [specSrcs]
      rw [specSrcs_fits m reg i hi (List.all_eq_true.mpr hf.2)]
      rfl
    · simp only [tabOk, List.all_eq_true, List.mem_range, Bool.or_eq_true, decide_eq_true_eq] at h
      exact (h reg (by omega) i (by omega)).resolve_left hx

theorem tabOk_wr (c : RegCap) (m : Spec.RegMap) (dev : List (Nat × Nat)) (h : tabOk (wrOk c m) dev = true) (hf : tabFits c m = true) (he : Ends c m)
    (reg i : Nat) (hx : (reg, i) ∉ dev) : wrOk c m reg i = true := by
  by_cases hr : 19 ≤ reg
  · obtain ⟨h1, _, h3⟩ := he reg hr
    simp [wrOk, h3]
  · simp only [tabFits, List.all_eq_true, List.mem_range, Bool.and_eq_true] at hf
    have hf := hf reg (by omega)
    by_cases hi : 32 ≤ i
    · unfold wrOk
      rw [specSrcs_fits m reg i hi (List.all_eq_true.mpr hf.2)]
    · simp only [tabOk, List.all_eq_true, List.mem_range, Bool.or_eq_true, decide_eq_true_eq] at h
      exact (h reg (by omega) i (by omega)).resolve_left hx

def tabApart (c : RegCap) : Bool :=
  (List.range 19).all fun reg => (List.range 19).all fun reg' => decide (reg = reg') || apart (c.wr reg) (c.rd reg')

theorem write_none (c : RegCap) (m : Spec.RegMap) (he : Ends c m) (s : Attrs) (reg data mask : Nat) (hr : 19 ≤ reg) : c.write s reg data mask = s := by
  rw [RegCap.write, (he reg hr).2.1]; rfl

theorem tabApart_read (c : RegCap) (m : Spec.RegMap) (h : tabApart c = true) (he : Ends c m) (s : Attrs) (reg reg' data mask : Nat) (hne : reg' ≠ reg) :
    c.read (c.write s reg data mask) reg' = c.read s reg' := by
  by_cases hr : 19 ≤ reg
  · rw [write_none c m he _ _ _ _ hr]
  · by_cases hr' : 19 ≤ reg'
    · have h0 : reg' ≠ 0 := by omega
      simp [RegCap.read, h0, (he reg' hr').1, evalRd]
    · simp only [tabApart, List.all_eq_true, List.mem_range, Bool.or_eq_true, decide_eq_true_eq] at h
      exact read_apart c s reg reg' data mask ((h reg (by omega) reg' (by omega)).resolve_left (fun e => hne e.symm))

def tabFrame (c : RegCap) (m : Spec.RegMap) (dev : List (Nat × Attrib)) : Bool :=
  (List.range 19).all fun reg => (c.wr reg).all fun w => decide ((reg, w.key) ∈ dev) || (m reg).any fun f => f.name == w.key && f.acc != .ro

theorem tabFrame_write (c : RegCap) (m : Spec.RegMap) (dev : List (Nat × Attrib)) (h : tabFrame c m dev = true) (he : Ends c m)
    (s : Attrs) (reg data mask : Nat) (a : Attrib) (hx : (reg, a) ∉ dev) (ha : ∀ f ∈ m reg, f.name = a → f.acc = .ro) :
    c.write s reg data mask a = s a := by
  by_cases hr : 19 ≤ reg
  · rw [write_none c m he _ _ _ _ hr]
  · apply execWr_other
    intro w hw e
    simp only [tabFrame, List.all_eq_true, List.mem_range, Bool.or_eq_true, decide_eq_true_eq] at h
    cases h reg (by omega) w hw with
    | inl h => rw [e] at h; exact hx h
    | inr h =>
      rw [List.any_eq_true] at h
      obtain ⟨f, hf, h⟩ := h
      simp only [Bool.and_eq_true, beq_iff_eq, bne_iff_ne] at h
      exact h.2 (ha f hf (h.1.trans e))

theorem pm_ends : Ends pm Spec.pmMap := by
  intro reg h
  obtain ⟨n, rfl⟩ : ∃ n, reg = n + 19 := ⟨reg - 19, by omega⟩
  exact ⟨by simp [pm, pmRd], by simp [pm, pmWr], rfl⟩

theorem pcie_ends : Ends pcie Spec.pcieMap := by
  intro reg h
  obtain ⟨n, rfl⟩ : ∃ n, reg = n + 19 := ⟨reg - 19, by omega⟩
  exact ⟨by simp [pcie, pcieRd], by simp [pcie, pcieWr], rfl⟩

theorem exp2_ends : Ends exp2 Spec.exp2Map := by
  intro reg h
  obtain ⟨n, rfl⟩ : ∃ n, reg = n + 19 := ⟨reg - 19, by omega⟩
  refine ⟨?_, by simp [exp2, exp2Wr], ?_⟩
  · simp only [exp2, exp2Rd]
    rw [if_neg (by omega), if_neg (by omega), if_neg (by omega)]
  · simp only [Spec.exp2Map]
    rw [if_neg (by omega)]

theorem aer_ends : Ends aer Spec.aerMap := by
  intro reg h
  obtain ⟨n, rfl⟩ : ∃ n, reg = n + 19 := ⟨reg - 19, by omega⟩
  refine ⟨?_, by simp [aer, aerWr], ?_⟩
  · simp only [aer, aerRd]
    simp
  · simp only [Spec.aerMap]
    rw [if_neg (by omega), if_neg (by omega)]

end CapRegs
end Pcie
