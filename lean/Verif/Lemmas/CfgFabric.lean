/- Configuration requests in the hierarchy. -/
import Verif.Spec.CfgFabric
import Verif.Lemmas.FabricRoot
import Verif.Lemmas.ScanNum
namespace Pcie
open Spec Phys
variable {σ : Type}

namespace Phys

/-- The function that the request gets to: on each bus the first that takes it. -/
def first : Phys σ → (t0 : Bool) → PcieId → Option (Fn σ)
  | nil, _, _ => none
  | ep d fn f rest, t0, id => if t0 = true ∧ d = id.device ∧ fn = id.function then some (.ep f) else rest.first t0 id
  | br d fn dsp f child rest, t0, id =>
    if t0 = true ∧ d = id.device ∧ fn = id.function then some (.br dsp f)
    else if t0 = false ∧ behind f id = true then child.first (id.bus = f.secBus) id else rest.first t0 id

/-- The tree with that function changed. -/
def upd (ge : Ep σ → Ep σ) (gb : Br σ → Br σ) : Phys σ → (t0 : Bool) → PcieId → Phys σ
  | nil, _, _ => nil
  | ep d fn f rest, t0, id =>
    if t0 = true ∧ d = id.device ∧ fn = id.function then .ep d fn (ge f) rest else .ep d fn f (rest.upd ge gb t0 id)
  | br d fn dsp f child rest, t0, id =>
    if t0 = true ∧ d = id.device ∧ fn = id.function then .br d fn dsp (gb f) child rest
    else if t0 = false ∧ behind f id = true then .br d fn dsp f (child.upd ge gb (id.bus = f.secBus) id) rest
    else .br d fn dsp f child (rest.upd ge gb t0 id)

theorem at_takers {b : Phys σ} {t0 : Bool} {id : PcieId} (h : b.takers t0 id = 0) : b.at_ t0 id = [] := by
  induction b with
  | nil => rfl
  | ep d fn f rest ih =>
    simp only [takers, Nat.add_eq_zero_iff] at h
    simp only [at_, ih h.2, List.append_nil]
    have := h.1
    split at this
    · omega
    · rw [if_neg (by assumption)]
  | br d fn dsp f child rest _ ih =>
    simp only [takers, Nat.add_eq_zero_iff] at h
    simp only [at_, ih h.2, List.append_nil]
    have := h.1
    cases t0 <;> simp only [Bool.false_eq_true, if_false, if_true] at this ⊢ <;> split at this <;>
      first | omega | rw [if_neg (by assumption)]

theorem write_takers (ops : CapOps σ) (reg v : Nat) {b : Phys σ} {t0 : Bool} {id : PcieId} (h : b.takers t0 id = 0) :
    b.write ops reg v t0 id = b := by
  induction b with
  | nil => rfl
  | ep d fn f rest ih =>
    simp only [takers, Nat.add_eq_zero_iff] at h
    have h1 : ¬ (t0 = true ∧ d = id.device ∧ fn = id.function) := by intro hh; rw [if_pos hh] at h; omega
    rw [write, if_neg h1, ih h.2]
  | br d fn dsp f child rest _ ih =>
    simp only [takers, Nat.add_eq_zero_iff] at h
    have h1 : ¬ (t0 = true ∧ d = id.device ∧ fn = id.function) := by
      rintro ⟨rfl, hh⟩
      simp only [if_true, if_pos hh] at h
      omega
    have h2 : ¬ (¬ t0 = true ∧ behind f id = true) := by
      rintro ⟨hz, hh⟩
      simp only [hz, if_pos hh, Bool.false_eq_true, if_false] at h
      omega
    rw [write, if_neg h1, if_neg h2, ih h.2]

theorem at_first {b : Phys σ} {t0 : Bool} {id : PcieId} (h : b.clear t0 id = true) : b.at_ t0 id = (b.first t0 id).toList := by
  induction b generalizing t0 with
  | nil => rfl
  | ep d fn f rest ih =>
    simp only [clear, Bool.and_eq_true, Bool.or_eq_true, Bool.not_eq_true', Bool.and_eq_false_iff, decide_eq_true_eq, decide_eq_false_iff_not] at h
    rw [at_, first]
    by_cases hk : t0 = true ∧ d = id.device ∧ fn = id.function
    · rw [if_pos hk, if_pos hk, at_takers (h.1.resolve_left (by rintro ((h | h) | h) <;> simp_all))]
      rfl
    · rw [if_neg hk, if_neg hk, ih h.2]; rfl
  | br d fn dsp f child rest ihc ih =>
    simp only [clear, Bool.and_eq_true] at h
    rw [at_, first]
    cases t0 with
    | true =>
      simp only [if_true, Bool.or_eq_true, Bool.not_eq_true', decide_eq_true_eq, decide_eq_false_iff_not, true_and] at h ⊢
      by_cases hk : d = id.device ∧ fn = id.function
      · rw [if_pos hk, if_pos hk, at_takers (h.1.resolve_left (fun hn => hn hk))]; rfl
      · rw [if_neg hk, if_neg hk, ih h.2]; rfl
    | false =>
      simp only [Bool.false_eq_true, if_false, Bool.or_eq_true, Bool.not_eq_true', Bool.and_eq_true, decide_eq_true_eq, false_and, true_and] at h ⊢
      by_cases hb : behind f id = true
      · obtain ⟨h1, h2⟩ := h.1.resolve_left (by rw [hb]; simp)
        rw [if_pos hb, if_pos hb, at_takers h1, ihc h2, List.append_nil]
      · rw [if_neg hb, if_neg hb, ih h.2]; rfl

theorem write_upd (ops : CapOps σ) (reg v : Nat) {b : Phys σ} {t0 : Bool} {id : PcieId} (h : b.clear t0 id = true) :
    b.write ops reg v t0 id = b.upd (fun f => f.write ops reg v 0xf) (fun f => f.write ops reg v 0xf) t0 id := by
  induction b generalizing t0 with
  | nil => rfl
  | ep d fn f rest ih =>
    simp only [clear, Bool.and_eq_true, Bool.or_eq_true, Bool.not_eq_true', Bool.and_eq_false_iff, decide_eq_true_eq, decide_eq_false_iff_not] at h
    rw [write, upd]
    by_cases hk : t0 = true ∧ d = id.device ∧ fn = id.function
    · rw [if_pos hk, if_pos hk, write_takers ops reg v (h.1.resolve_left (by rintro ((h | h) | h) <;> simp_all))]
    · rw [if_neg hk, if_neg hk, ih h.2]
  | br d fn dsp f child rest ihc ih =>
    simp only [clear, Bool.and_eq_true] at h
    rw [write, upd]
    cases t0 with
    | true =>
      simp only [if_true, Bool.or_eq_true, Bool.not_eq_true', decide_eq_true_eq, decide_eq_false_iff_not, true_and, not_true_eq_false, false_and,
        if_false, Bool.true_eq_false] at h ⊢
      by_cases hk : d = id.device ∧ fn = id.function
      · rw [if_pos hk, if_pos hk, write_takers ops reg v (h.1.resolve_left (fun hn => hn hk))]
      · rw [if_neg hk, if_neg hk, ih h.2]
    | false =>
      simp only [Bool.false_eq_true, if_false, Bool.or_eq_true, Bool.not_eq_true', Bool.and_eq_true, decide_eq_true_eq, false_and, true_and,
        not_false_eq_true] at h ⊢
      by_cases hb : behind f id = true
      · obtain ⟨h1, h2⟩ := h.1.resolve_left (by rw [hb]; simp)
        rw [if_pos hb, if_pos hb, write_takers ops reg v h1, ihc h2]
      · rw [if_neg hb, if_neg hb, ih h.2]

theorem upd_none {ge : Ep σ → Ep σ} {gb : Br σ → Br σ} {b : Phys σ} {t0 : Bool} {id : PcieId} (h : b.first t0 id = none) :
    b.upd ge gb t0 id = b := by
  induction b generalizing t0 with
  | nil => rfl
  | ep d fn f rest ih =>
    rw [first] at h
    rw [upd]
    split at h
    · cases h
    · rw [if_neg (by assumption), ih h]
  | br d fn dsp f child rest ihc ih =>
    rw [first] at h
    rw [upd]
    split at h
    · cases h
    · rw [if_neg (by assumption)]
      split at h
      · rw [if_pos (by assumption), ihc h]
      · rw [if_neg (by assumption), ih h]

end Phys

/-! ### Requests and completions -/

/-- A configuration request of the root complex on its way. -/
structure CfgReq (wr z : Bool) (t : Tlp) : Prop where
  typ : t.fmtType = some (cfgTy wr z)
  check : t.check = .ok true
  ep : t.ep = false
  th : t.th = false
  req : t.requester_id = ⟨0, 0, 0⟩
  ne : t.completer_id ≠ ⟨0, 0, 0⟩

/-- A completion on its way to the root complex. -/
structure CfgCpl (c : Tlp) : Prop where
  typ : c.fmtType = some .CPL ∨ c.fmtType = some .CPL_DATA
  check : c.check = .ok true
  ep : c.ep = false
  th : c.th = false
  req : c.requester_id = ⟨0, 0, 0⟩

theorem copy_eq {t : Tlp} (h : t.th = false) : t.copy = t := by
  cases t; simp only at h; subst h; rfl

theorem matchTlp_cfg {wr z : Bool} {t : Tlp} (h : CfgReq wr z t) (pid : PcieId) (bars : List BarReg) :
    matchTlp pid bars t = .ok (z && decide (pid.device = t.completer_id.device ∧ pid.function = t.completer_id.function)) := by
  unfold matchTlp
  rw [h.typ]
  cases wr <;> cases z <;> simp [cfgTy, TlpType.isCfg0, TlpType.isCfg1]

theorem matchSecondary_cfg {wr z : Bool} {t : Tlp} (h : CfgReq wr z t) (b : BrFn σ) :
    b.matchSecondary t = .ok (!z && behind b.toBr t.completer_id) := by
  unfold BrFn.matchSecondary
  rw [h.typ]
  cases wr <;> cases z <;> rfl

theorem ur_cpl {wr z : Bool} {t : Tlp} (h : CfgReq wr z t) (i : PcieId) : CfgCpl (t.createUr i) := by
  refine ⟨.inl (show TlpType.ofPair 0 10 = _ by decide), createUr_check t i, rfl, rfl, h.req⟩

theorem answerUr_cfg {wr z : Bool} {t : Tlp} (h : CfgReq wr z t) : answerUr t = .ok true := by
  unfold answerUr
  rw [h.typ]
  cases wr <;> cases z <;> rfl

theorem cfgTy_cpl (wr z : Bool) : (cfgTy wr z).isCpl = false := by cases wr <;> cases z <;> rfl

theorem not_completion {wr z : Bool} {t : Tlp} (h : CfgReq wr z t) : t.isCompletion = false := by
  rw [isCompletion_eq h.typ]; cases wr <;> cases z <;> rfl

theorem handleTlp_cfg {wr : Bool} {t : Tlp} (h : CfgReq wr true t) {hs : List TlpType} (hh : CfgHandlers hs) :
    handleTlp hs t = .ok [.release, .handler t] := by
  unfold handleTlp
  rw [h.typ]
  cases wr <;> simp [cfgTy, TlpType.isCpl, hh.1, hh.2]

/-- The type 1 request behind a bridge. -/
theorem convert_cfg {wr : Bool} {t : Tlp} (h : CfgReq wr false t) (b : BrFn σ) :
    CfgReq wr (decide (t.completer_id.bus = b.secBus)) (b.convert t) ∧ (b.convert t).completer_id = t.completer_id ∧
    (b.convert t).setFmtType (cfgTy wr true) = t.setFmtType (cfgTy wr true) ∧ ∀ i, (b.convert t).createUr i = t.createUr i := by
  unfold BrFn.convert
  rw [h.typ]
  by_cases hb : t.completer_id.bus = b.secBus
  · rw [decide_eq_true hb]
    have key : ∀ u : Tlp, u = t.setFmtType (cfgTy wr true) → CfgReq wr true u ∧ u.completer_id = t.completer_id ∧
        u.setFmtType (cfgTy wr true) = t.setFmtType (cfgTy wr true) ∧ ∀ i, u.createUr i = t.createUr i := by
      rintro u rfl
      have ht : (t.setFmtType (cfgTy wr true)).fmtType = some (cfgTy wr true) := TlpType.ofPair_mk _
      refine ⟨⟨ht, cfg_check h.typ ht h.check rfl rfl, h.ep, h.th, h.req, h.ne⟩, rfl, rfl, fun i => rfl⟩
    cases wr
    · exact key _ (by simp [cfgTy, hb])
    · exact key _ (by simp [cfgTy, hb])
  · rw [decide_eq_false hb, if_neg (fun hh => hb hh.2)]
    exact ⟨h, rfl, rfl, fun i => rfl⟩

/-- bridge.py:325-378 for configuration requests. -/
theorem upstreamRecv_own {wr : Bool} {t : Tlp} (h : CfgReq wr true t) {b : BrFn σ} (hb : CfgHandlers b.handlers)
    (hk : b.id.device = t.completer_id.device ∧ b.id.function = t.completer_id.function) :
    b.upstreamRecv t = .ok (b, [.release, .handler t]) := by
  unfold BrFn.upstreamRecv
  rw [assertCheck_ok h.check]
  simp only [h.ep, Bool.false_eq_true, and_false, if_false, matchTlp_cfg h, hk, and_self, decide_true, Bool.and_true, not_completion h, false_and,
    handleTlp_cfg h hb]

theorem upstreamRecv_down {wr : Bool} {t : Tlp} (h : CfgReq wr false t) {b : BrFn σ} (hk : behind b.toBr t.completer_id = true) :
    b.upstreamRecv t = .ok (b, [.down (b.convert t)]) := by
  obtain ⟨c1, -⟩ := convert_cfg h b
  unfold BrFn.upstreamRecv
  rw [assertCheck_ok h.check]
  simp only [h.ep, Bool.false_eq_true, and_false, if_false, matchTlp_cfg h, Bool.false_and, matchSecondary_cfg h, hk, Bool.not_false, Bool.and_true]
  rw [BrFn.downstreamSend_ok _ c1.check]
  simp only [c1.ep, Bool.false_eq_true, and_false, if_false]

theorem upstreamRecv_ur {wr z : Bool} {t : Tlp} (h : CfgReq wr z t) {b : BrFn σ}
    (h1 : ¬ (z = true ∧ b.id.device = t.completer_id.device ∧ b.id.function = t.completer_id.function))
    (h2 : ¬ (z = false ∧ behind b.toBr t.completer_id = true)) :
    b.upstreamRecv t = .ok (b, [.release, .up (t.createUr b.id)]) := by
  have e1 : (z && decide (b.id.device = t.completer_id.device ∧ b.id.function = t.completer_id.function)) = false := by
    rw [Bool.eq_false_iff]; intro hh; simp only [Bool.and_eq_true, decide_eq_true_eq] at hh; exact h1 hh
  have e2 : (!z && behind b.toBr t.completer_id) = false := by
    rw [Bool.eq_false_iff]; intro hh; simp only [Bool.and_eq_true, Bool.not_eq_true'] at hh; exact h2 hh
  have hc := ur_cpl h b.id
  unfold BrFn.upstreamRecv
  rw [assertCheck_ok h.check]
  simp only [h.ep, Bool.false_eq_true, and_false, if_false, matchTlp_cfg h, e1, matchSecondary_cfg h, e2, answerUr_cfg h]
  rw [BrFn.upstreamSend_ok _ hc.check]
  simp only [hc.ep, Bool.false_eq_true, and_false, if_false]

/-! Completions go up. -/

theorem cpl_isCpl {c : Tlp} (h : CfgCpl c) : ∃ ty, c.fmtType = some ty ∧ ty.isCpl = true ∧ ty.isCfg0 = false ∧ ty.isCfg1 = false ∧ ty.isCfg = false := by
  rcases h.typ with h | h
  · exact ⟨_, h, rfl, rfl, rfl, rfl⟩
  · exact ⟨_, h, rfl, rfl, rfl, rfl⟩

theorem matchTlp_cpl {c : Tlp} (h : CfgCpl c) (pid : PcieId) (bars : List BarReg) : matchTlp pid bars c = .ok (decide (pid = ⟨0, 0, 0⟩)) := by
  obtain ⟨ty, h1, h2, h3, h4, -⟩ := cpl_isCpl h
  unfold matchTlp
  rw [h1]
  simp only [h2, h3, h4, Bool.false_eq_true, if_false, if_true, h.req]

theorem matchSecondary_cpl {c : Tlp} (h : CfgCpl c) (b : BrFn σ) : b.matchSecondary c = .ok false := by
  obtain ⟨ty, h1, h2, h3, h4, -⟩ := cpl_isCpl h
  unfold BrFn.matchSecondary
  rw [h1]
  simp only [h2, h3, h4, Bool.false_eq_true, if_false, if_true, h.req, BrFn.busMatch, ne_eq, not_true_eq_false, and_false, decide_false]

theorem sentUp_upstreamSend {c : Tlp} (h : CfgCpl c) (b : BrFn σ) : sentUp (b.upstreamSend c) = [c] := by
  rw [BrFn.upstreamSend_ok _ h.check]; rfl

theorem sentUp_downstreamRecv {c : Tlp} (h : CfgCpl c) {b : BrFn σ} (hb : b.root = true ∨ b.id ≠ ⟨0, 0, 0⟩) : sentUp (b.downstreamRecv c) = [c] := by
  obtain ⟨ty, h1, h2, h3, h4, h5⟩ := cpl_isCpl h
  unfold BrFn.downstreamRecv
  rw [assertCheck_ok h.check]
  simp only [h.ep, Bool.false_eq_true, and_false, if_false, h1, Option.any, h5, false_or, matchTlp_cpl h, matchSecondary_cpl h, not_false_eq_true,
    true_or, and_self, if_true]
  have e : (if b.root = true then (.ok false : Py Bool) else .ok (decide (b.id = ⟨0, 0, 0⟩))) = .ok false := by
    split
    · rfl
    · rename_i hr; rw [decide_eq_false (hb.resolve_left hr)]
  rw [e]
  exact sentUp_upstreamSend h b

theorem swUp_cpl {c : Tlp} (h : CfgCpl c) {up : BrFn σ} (hb : up.root = true ∨ up.id ≠ ⟨0, 0, 0⟩) (ports : Ports σ) (j : Nat) : swUp up ports j c = [c] := by
  have hcl : Sw.claims (⟨up, true⟩ : SwPort σ) c = .ok true := by
    unfold Sw.claims
    simp only [matchTlp_cpl h, matchSecondary_cpl h]
    by_cases hh : up.id = ⟨0, 0, 0⟩
    · rw [decide_eq_true hh]
    · rw [decide_eq_false hh]; rfl
  unfold swUp
  have : Sw.route (swPorts up ports) (j + 1) c = .ok (.to 0) := by
    unfold Sw.route swPorts
    rw [Sw.find, if_neg (by omega), hcl]
  rw [this]
  exact sentUp_downstreamRecv h hb

theorem flatMap_self {α : Type} {l : List α} {g : α → List α} (h : ∀ c ∈ l, g c = [c]) : l.flatMap g = l := by
  induction l with
  | nil => rfl
  | cons a l ih =>
    rw [List.flatMap_cons, h a (by simp), ih (fun c hc => h c (by simp [hc]))]; rfl

end Pcie
