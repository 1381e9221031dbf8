/- Configuration accesses of the root complex to the hierarchy. -/
import Verif.Lemmas.CfgFabricRun
import Verif.Props.CfgAccess
namespace Pcie
open Spec Phys
variable {σ : Type}

/-! ### Registers changed in one place -/

theorem first_upd {ge : Ep σ → Ep σ} {gb : Br σ → Br σ} {b : Phys σ} {z : Bool} {id : PcieId} :
    (b.upd ge gb z id).first z id = (b.first z id).map fun | .ep f => .ep (ge f) | .br dsp f => .br dsp (gb f) := by
  induction b generalizing z with
  | nil => rfl
  | ep d fn f rest ih =>
    rw [upd, first]
    split
    · rw [first, if_pos (by assumption)]; rfl
    · rw [first, if_neg (by assumption), ih]
  | br d fn dsp f child rest ihc ih =>
    rw [upd, first]
    split
    · rw [first, if_pos (by assumption)]; rfl
    · split
      · rw [first, if_neg (by assumption), if_pos (by assumption), ihc]
      · rw [first, if_neg (by assumption), if_neg (by assumption), ih]

theorem upd_congr {ge ge' : Ep σ → Ep σ} {gb gb' : Br σ → Br σ} {b : Phys σ} {z : Bool} {id : PcieId}
    (he : ∀ f, b.first z id = some (.ep f) → ge f = ge' f) (hb : ∀ dsp f, b.first z id = some (.br dsp f) → gb f = gb' f) :
    b.upd ge gb z id = b.upd ge' gb' z id := by
  induction b generalizing z with
  | nil => rfl
  | ep d fn f rest ih =>
    rw [first] at he hb
    rw [upd, upd]
    split
    · rename_i hk; rw [if_pos hk] at he; rw [he f rfl]
    · rename_i hk; rw [if_neg hk] at he hb; rw [ih he hb]
  | br d fn dsp f child rest ihc ih =>
    rw [first] at he hb
    rw [upd, upd]
    split
    · rename_i hk; rw [if_pos hk] at hb; rw [hb dsp f rfl]
    · rename_i hk
      rw [if_neg hk] at he hb
      split
      · rename_i hk; rw [if_pos hk] at he hb; rw [ihc he hb]
      · rename_i hk; rw [if_neg hk] at he hb; rw [ih he hb]

theorem upd_id {b : Phys σ} {z : Bool} {id : PcieId} : b.upd (fun f => f) (fun f => f) z id = b := by
  induction b generalizing z with
  | nil => rfl
  | ep d fn f rest ih => rw [upd, ih]; split <;> rfl
  | br d fn dsp f child rest ihc ih => rw [upd, ih, ihc]; split <;> [rfl; (split <;> rfl)]

theorem upd_upd {ge ge' : Ep σ → Ep σ} {gb gb' : Br σ → Br σ} {b : Phys σ} {z : Bool} {id : PcieId} :
    (b.upd ge gb z id).upd ge' gb' z id = b.upd (fun f => ge' (ge f)) (fun f => gb' (gb f)) z id := by
  induction b generalizing z with
  | nil => rfl
  | ep d fn f rest ih =>
    rw [upd, upd]
    split
    · rw [upd, if_pos (by assumption)]
    · rw [upd, if_neg (by assumption), ih]
  | br d fn dsp f child rest ihc ih =>
    rw [upd, upd]
    split
    · rw [upd, if_pos (by assumption)]
    · split
      · rw [upd, if_neg (by assumption), if_pos (by assumption), ihc]
      · rw [upd, if_neg (by assumption), if_neg (by assumption), ih]

/-- The registers of a function do not matter for the way to it. -/
theorem takers_upd {ge : Ep σ → Ep σ} {gb : Br σ → Br σ} {b : Phys σ} {id : PcieId} (z : Bool) :
    (b.upd ge gb z id).takers z id = b.takers z id := by
  induction b with
  | nil => rfl
  | ep d fn f rest ih =>
    rw [upd]
    split
    · rw [takers, takers]
    · rw [takers, takers, ih]
  | br d fn dsp f child rest _ ih =>
    rw [upd]
    split
    · rename_i hk; obtain ⟨rfl, hk⟩ := hk; rw [takers, takers]; rfl
    · split
      · rw [takers, takers]
      · rw [takers, takers, ih]

theorem clear_upd {ge : Ep σ → Ep σ} {gb : Br σ → Br σ} {b : Phys σ} {z : Bool} {id : PcieId} :
    (b.upd ge gb z id).clear z id = b.clear z id := by
  induction b generalizing z with
  | nil => rfl
  | ep d fn f rest ih =>
    rw [upd]
    split
    · rw [clear, clear]
    · rw [clear, clear, ih, takers_upd]
  | br d fn dsp f child rest ihc ih =>
    rw [upd]
    split
    · rename_i hk; obtain ⟨rfl, hk⟩ := hk; rw [clear, clear]; rfl
    · split
      · rw [clear, clear, ihc]
      · rw [clear, clear, ih, takers_upd]

/-! ### The requests -/

/-- A configuration request as the root complex makes it. -/
structure CfgTlp (wr : Bool) (id : PcieId) (t : Tlp) : Prop where
  req : CfgReq wr false t
  to_ : t.completer_id = id

theorem cfgTlp_tag {wr : Bool} {id : PcieId} {t : Tlp} (h : CfgTlp wr id t) (k : Nat) : CfgTlp wr id { t with tag := k } :=
  ⟨⟨h.req.typ, h.req.check, h.req.ep, h.req.th, h.req.req, h.req.ne⟩, h.to_⟩

theorem readTlp_req {id : PcieId} (hi : CfgId id) (addr L : Nat) (h0 : 0 < L) (h1 : addr % 4 + L ≤ 4) : CfgTlp false id (Cfg.readTlp id addr L) := by
  obtain ⟨a1, a2, a3, a4⟩ := Cfg.readTlp_ok id addr L h0 h1
  have hv := fmtType_value a1.type
  have hf : (Cfg.readTlp id addr L).fmt = 0 := congrArg Prod.fst hv
  refine ⟨⟨a1.type, ?_, ?_, ?_, ?_, by rw [a3]; exact hi.2⟩, a3⟩
  · unfold Tlp.check
    rw [a1.type]
    simp [TlpType.THREE_DW_DATA, TlpType.FOUR_DW_DATA, hf]
  all_goals
    unfold Cfg.readTlp
    simp only [Pcie.setAddrBe_one _ addr L h0 h1, Tlp.setFmtType]

theorem writeTlp_req {id : PcieId} (hi : CfgId id) (addr : Nat) (d : List UInt8) (h0 : 0 < d.length) (h1 : addr % 4 + d.length ≤ 4) :
    CfgTlp true id (Cfg.writeTlp id addr d) := by
  obtain ⟨a1, a2, a3, a4, -⟩ := Cfg.writeTlp_ok id addr d h0 h1
  have hv := fmtType_value a1.type
  have hf : (Cfg.writeTlp id addr d).fmt = 2 := congrArg Prod.fst hv
  have p3 := (C07_payload { (({} : Tlp).setFmtType .CFG_WRITE_1) with requester_id := ⟨0, 0, 0⟩, completer_id := id } addr d).2.2
  rw [Pcie.setAddrBe_one _ addr d.length h0 h1] at p3
  refine ⟨⟨a1.type, ?_, congrArg Tlp.ep p3, congrArg Tlp.th p3, congrArg Tlp.requester_id p3, by rw [a3]; exact hi.2⟩, a3⟩
  unfold Tlp.check
  rw [a1.type]
  simp [TlpType.THREE_DW_DATA, TlpType.FOUR_DW_DATA, hf, a1.one_dword, a4]

/-! ### The host bridge -/

/-- The function that a request for `id` gets to has that number. -/
def Right (ports : Ports σ) (id : PcieId) : Prop := ports.idAt (id.bus = 0) id = some id

/-- A request that changes no bus number registers leaves `ports'`: what is right stays right. -/
structure After (ports ports' : Ports σ) : Prop where
  cfg : CfgPorts ports'
  same : ports.same ports'
  right : ∀ id, Right ports id → Right ports' id

theorem After.refl {ports : Ports σ} (h : CfgPorts ports) : After ports ports := ⟨h, Ports.same_refl _, fun _ h => h⟩

theorem After.trans {p p' p'' : Ports σ} (h : After p p') (h' : After p' p'') : After p p'' :=
  ⟨h'.cfg, Ports.same_trans _ h.same h'.same, fun id hi => h'.right id (h.right id hi)⟩

theorem dev_idAt_first {z : Bool} {id : PcieId} (fns : List (EpFn σ)) (h : (devBus fns).first z id = none) :
    fns.find? (fun f => decide (takes z f.id id)) = none := by
  induction fns with
  | nil => rfl
  | cons f fns ih =>
    have hc : devBus (f :: fns) = .ep f.id.device f.id.function f.toEp (devBus fns) := rfl
    rw [hc, first] at h
    split at h
    · cases h
    · rename_i hk
      rw [List.find?_cons, decide_eq_false (show ¬ takes z f.id id from hk)]
      exact ih h

mutual
/-- If nobody is there, nobody has the number. -/
theorem Node.idAt_first {z : Bool} {id : PcieId} : ∀ (n : Node σ), n.bus.first z id = none → n.idAt z id = none
  | .none, _ => by rw [Node.idAt]
  | .dev bus fns, h => by
    rw [Node.bus] at h
    rw [Node.idAt, dev_idAt_first fns h]
    rfl
  | .sw up ports, h => by
    rw [Node.bus, first] at h
    rw [Node.idAt]
    split at h
    · cases h
    · rename_i hk
      rw [if_neg (show ¬ takes z up.id id from hk)]
      split at h
      · rename_i hb
        rw [if_pos hb]; exact Ports.idAt_first ports h
      · rename_i hb
        rw [if_neg hb]
@[inherit_doc Node.idAt_first]
theorem Ports.idAt_first {z : Bool} {id : PcieId} : ∀ (p : Ports σ), p.bus.first z id = none → p.idAt z id = none
  | .nil, _ => by rw [Ports.idAt]
  | .cons b n rest, h => by
    rw [Ports.bus, first] at h
    rw [Ports.idAt]
    split at h
    · cases h
    · rename_i hk
      rw [if_neg (show ¬ takes z b.id id from hk)]
      split at h
      · rename_i hb
        rw [if_pos hb]; exact Node.idAt_first n h
      · rename_i hb
        rw [if_neg hb]; exact Ports.idAt_first rest h
end

theorem right_first {ports : Ports σ} {id : PcieId} (h : Right ports id) : ports.bus.first (id.bus = 0) id ≠ none := by
  intro hn
  unfold Right at h
  rw [Ports.idAt_first ports hn] at h
  cases h

theorem host_cfg (ops : CapOps σ) {host : BrFn σ} (hh : CfgHost host) {ports : Ports σ} (hp : CfgPorts ports) {wr : Bool} {id : PcieId} (hi : CfgId id)
    {t : Tlp} (h : CfgTlp wr id t) :
    ∃ ports' cs, (Node.sw host ports).cfg ops t = .ok (.sw host ports', cs) ∧ CfgPorts ports' ∧ (∀ c ∈ cs, CfgCpl c) ∧
      (ports.bus.first (decide (id.bus = 0)) id ≠ none → ports'.idAt (decide (id.bus = 0)) id = some id) ∧
      (ports.same ports' ∧ Kept ops wr (decide (id.bus = 0)) (host.convert t) ports.bus (fun z id => ports.idAt z id) (fun z id => ports'.idAt z id)) ∧
      Outcome ops wr (decide (id.bus = 0)) (host.convert t) ports.bus ports'.bus cs := by
  obtain ⟨hr, rfl⟩ := h
  have hb : behind host.toBr t.completer_id = true := by
    simp only [behind, decide_eq_true_eq, hh.buses.1, hh.buses.2]
    exact ⟨Nat.zero_le _, hi.1, hi.2⟩
  obtain ⟨c1, c2, c3, c4⟩ := convert_cfg hr host
  rw [hh.buses.1] at c1
  have hrt := hh.root
  rw [Node.cfg, upstreamRecv_down hr hb]
  simp only [route_cfg c1]
  cases hk : ports.pick (decide (t.completer_id.bus = 0)) (host.convert t).completer_id with
  | none =>
    have hf := pick_none hk
    refine ⟨ports, [(host.convert t).createUr host.id], ?_, hp, ?_, fun hn => absurd (by rw [c2] at hf; exact hf) hn, ⟨Ports.same_refl _, Kept.rfl⟩, ?_, ?_⟩
    · simp only [List.flatMap_cons, List.flatMap_nil, List.append_nil, sentUp_downstreamRecv (ur_cpl c1 host.id) (.inl hrt)]
    · intro c hc; rw [List.mem_singleton] at hc; subst hc; exact ur_cpl c1 _
    · rw [upd_none hf]
    · rw [hf]; exact .inr ⟨_, rfl⟩
  | some k =>
    obtain ⟨ports', cs, i1, i2, i3, ic, ik, i4⟩ := Ports.cfg_spec ops ports hp c1 (fun hz => by rw [c2]; exact of_decide_eq_false hz) hk
    rw [c2] at ic
    refine ⟨ports', cs, ?_, i2, i3, ic, ik, i4⟩
    simp only [Nat.add_sub_cancel, i1]
    rw [flatMap_self fun c hc => swUp_cpl (i3 c hc) (.inl hrt) _ _]

theorem toType0_cfg {wr : Bool} {id : PcieId} {t : Tlp} (h : CfgTlp wr id t) (k : Nat) :
    Cfg.toType0 k t = ({ t with tag := k } : Tlp).setFmtType (cfgTy wr true) := by
  have ht : ({ t with tag := k } : Tlp).fmtType = some (cfgTy wr false) := h.req.typ
  unfold Cfg.toType0
  simp only [ht]
  cases wr <;> simp [cfgTy]

theorem serve_tag {ρ : Type} (ops : CapOps ρ) (f : Cfg.Fn ρ) (t : Tlp) : ∀ c ∈ (Cfg.Fn.serve ops f t).2, c.tag = t.tag := by
  have one : ∀ a : Tlp, a.tag = t.tag → ∀ c ∈ [a], c.tag = t.tag := by
    intro a ha c hc; rw [List.mem_singleton] at hc; rw [hc, ha]
  unfold Cfg.Fn.serve
  by_cases h1 : t.fmtType = some .CFG_READ_0
  · simp only [h1, if_true]
    unfold Cfg.Fn.handleRead
    by_cases hk : t.completer_id.device = f.id.device ∧ t.completer_id.function = f.id.function
    · simp only [hk, and_self, if_true]
      cases Cfg.packLE (ops.read _ (t.address >>> 2)) with
      | error e => exact fun c hc => nomatch hc
      | ok d => exact one _ rfl
    · simp only [hk, if_false]
      exact one _ rfl
  · by_cases h2 : t.fmtType = some .CFG_WRITE_0
    · simp only [h2, if_true, reduceCtorEq, Option.some.injEq, if_false]
      unfold Cfg.Fn.handleWrite
      by_cases hk : t.completer_id.device = f.id.device ∧ t.completer_id.function = f.id.function
      · simp only [hk, and_self, if_true]
        cases Cfg.unpackLE t.data with
        | error e => exact fun c hc => nomatch hc
        | ok d => exact one _ rfl
      · simp only [hk, if_false]
        exact one _ rfl
    · simp only [h1, h2, if_false]
      exact fun c hc => nomatch hc

theorem filter_all {α : Type} {p : α → Bool} {l : List α} (h : ∀ a ∈ l, p a = true) : l.filter p = l := List.filter_eq_self.2 h

theorem fnOp_serve {ρ : Type} (ops : CapOps ρ) (tag : Tlp → Nat) {f : Cfg.Fn ρ} {t : Tlp} (hf : f.id = (Cfg.toType0 (tag t) t).completer_id) :
    Cfg.Fn.op ops tag f t = ((Cfg.Fn.serve ops f (Cfg.toType0 (tag t) t)).1,
      (Region.collect (Region.isMemRead t) (Cfg.Fn.serve ops f (Cfg.toType0 (tag t) t)).2).1, none) := by
  unfold Cfg.Fn.op Cfg.Fn.serve
  simp only
  generalize (if (Cfg.toType0 (tag t) t).fmtType = some .CFG_READ_0 then f.handleRead ops (Cfg.toType0 (tag t) t)
    else if (Cfg.toType0 (tag t) t).fmtType = some .CFG_WRITE_0 then f.handleWrite ops (Cfg.toType0 (tag t) t) else .ok (f, [])) = r
  cases r with
  | ok r => rfl
  | error e =>
    simp only [Prod.mk.injEq]
    refine ⟨?_, rfl, trivial⟩
    obtain ⟨i, r⟩ := f
    simp only at hf
    subst hf
    rfl

/-- One request of the root complex. -/
theorem cfgOp_spec (ops : CapOps σ) (tag : Tlp → Nat) {host : BrFn σ} (hh : CfgHost host) {ports : Ports σ} (hp : CfgPorts ports) {wr : Bool}
    {id : PcieId} (hi : CfgId id) {t : Tlp} (h : CfgTlp wr id t) :
    ∃ ports' cs, Node.cfgOp ops tag (.sw host ports) t = (.sw host ports', cs, none) ∧ CfgPorts ports' ∧
      (ports.bus.first (decide (id.bus = 0)) id ≠ none → Right ports' id) ∧
      ports.same ports' ∧ (∀ id', id' ≠ id → (id'.bus ≠ 0 → ∀ dsp f, ports.bus.first (id.bus = 0) id = some (.br dsp f) → Stable id' f (servedBr ops (Cfg.toType0 (tag t) t) f)) →
        Right ports id' → Right ports' id') ∧
      ports'.bus = ports.bus.upd (servedEp ops (Cfg.toType0 (tag t) t)) (servedBr ops (Cfg.toType0 (tag t) t)) (id.bus = 0) id ∧
      match ports.bus.first (id.bus = 0) id with
      | some x => cs = (Cfg.Fn.op (fnOps ops) tag ⟨id, x⟩ t).2.1
      | none => cs = [] ∨ ∃ i, cs = [({ t with tag := tag t } : Tlp).createUr i] := by
  have hto := h.to_
  subst hto
  have h' := cfgTlp_tag h (tag t)
  obtain ⟨ports', cs, i1, i2, i3, ic, ⟨is, ik⟩, i4⟩ := host_cfg ops hh hp hi h'
  obtain ⟨c1, c2, c3, c4⟩ := convert_cfg h'.req host
  unfold Outcome at i4
  simp only [c2, c3, c4, ← toType0_cfg h] at i4
  obtain ⟨o1, o2⟩ := i4
  refine ⟨ports', (Region.collect (Region.isMemRead t) (cs.filter fun c => c.tag = tag t)).1, ?_, i2, ic, is, ?_, o1, ?_⟩
  · unfold Node.cfgOp
    simp only [i1]
  · intro id' hne hst hr
    refine ik id' _ (by rw [c2]; exact hne) (fun q1 q2 => ?_) of_decide_eq_false (fun h0 dsp f hf => ?_) hr
    · rw [c2, of_decide_eq_true q2]; exact (of_decide_eq_true q1).symm
    · rw [c3]
      rw [c2] at hf
      have := hst h0 dsp f hf
      rw [toType0_cfg h] at this
      exact this
  · have ht0 : (Cfg.toType0 (tag t) t).tag = tag t := by rw [toType0_cfg h]; rfl
    have hc0 : (Cfg.toType0 (tag t) t).completer_id = t.completer_id := by rw [toType0_cfg h]; rfl
    split
    · rename_i x hx
      rw [hx] at o2
      simp only at o2
      rw [filter_all (by
        intro c hc
        rw [o2] at hc
        have := serve_tag _ _ _ c hc
        rw [ht0] at this
        exact decide_eq_true this), fnOp_serve _ _ hc0.symm, o2]
      simp only [served, hc0]
    · rename_i hx
      rw [hx] at o2
      rcases o2 with o2 | ⟨i, o2⟩
      · left; rw [o2]; rfl
      · right
        refine ⟨i, ?_⟩
        rw [o2, filter_all (by intro c hc; rw [List.mem_singleton] at hc; subst hc; exact decide_eq_true rfl)]
        rfl

/-! ### Accesses -/

/-- The function with the registers changed. -/
def Fn.mapRegs (ge : Ep σ → Ep σ) (gb : Br σ → Br σ) : Fn σ → Fn σ
  | .ep f => .ep (ge f)
  | .br dsp f => .br dsp (gb f)

theorem upd_replaceAt {ge : Ep σ → Ep σ} {gb : Br σ → Br σ} {b : Phys σ} {z : Bool} {id : PcieId} {x : Fn σ} (h : b.first z id = some x) :
    b.upd ge gb z id = replaceAt (x.mapRegs ge gb) b z id := by
  induction b generalizing z with
  | nil => rfl
  | ep d fn f rest ih =>
    rw [first] at h
    rw [upd, replaceAt]
    split
    · rename_i hk; rw [if_pos hk] at h; cases h; rfl
    · rename_i hk; rw [if_neg hk] at h; rw [ih h]
  | br d fn dsp f child rest ihc ih =>
    rw [first] at h
    rw [upd, replaceAt]
    split
    · rename_i hk; rw [if_pos hk] at h; cases h; rfl
    · rename_i hk
      rw [if_neg hk] at h
      split
      · rename_i hk; rw [if_pos hk] at h; rw [ihc h]
      · rename_i hk; rw [if_neg hk] at h; rw [ih h]

theorem serve_map (ops : CapOps σ) (t : Tlp) (x : Fn σ) :
    (Cfg.Fn.serve (fnOps ops) ⟨t.completer_id, x⟩ t).1 = ⟨t.completer_id, x.mapRegs (servedEp ops t) (servedBr ops t)⟩ := by
  cases x
  all_goals
    unfold Fn.mapRegs servedEp servedBr Cfg.Fn.serve Cfg.Fn.handleRead Cfg.Fn.handleWrite
    simp only [ne_eq, not_true_eq_false, if_false, and_self, if_true, fnOps, Fn.read]
    by_cases h1 : t.fmtType = some .CFG_READ_0
    · simp only [h1, if_true]
      cases Cfg.packLE _ <;> rfl
    · by_cases h2 : t.fmtType = some .CFG_WRITE_0
      · simp only [h2, if_true, reduceCtorEq, Option.some.injEq, if_false]
        cases Cfg.unpackLE t.data <;> rfl
      · simp only [h1, h2, if_false]

/-- A read changes no registers. -/
theorem served_read (ops : CapOps σ) {t : Tlp} (h : t.fmtType = some .CFG_READ_0) :
    (servedEp ops t = fun f => f) ∧ servedBr ops t = fun f => f := by
  constructor <;> funext f
  · unfold servedEp Cfg.Fn.serve
    simp only [h, if_true]
    unfold Cfg.Fn.handleRead
    simp only [and_self, if_true, ne_eq, not_true_eq_false, if_false]
    cases Cfg.packLE _ <;> rfl
  · unfold servedBr Cfg.Fn.serve
    simp only [h, if_true]
    unfold Cfg.Fn.handleRead
    simp only [and_self, if_true, ne_eq, not_true_eq_false, if_false]
    cases Cfg.packLE _ <;> rfl

/-- A read request leaves all registers as they are. -/
theorem cfgOp_read (ops : CapOps σ) (tag : Tlp → Nat) {host : BrFn σ} (hh : CfgHost host) {ports : Ports σ} (hp : CfgPorts ports)
    {id : PcieId} (hi : CfgId id) {t : Tlp} (h : CfgTlp false id t) :
    ∃ ports' cs, Node.cfgOp ops tag (.sw host ports) t = (.sw host ports', cs, none) ∧ After ports ports' ∧
      (ports.bus.first (decide (id.bus = 0)) id ≠ none → Right ports' id) ∧ ports'.bus = ports.bus ∧
      match ports.bus.first (id.bus = 0) id with
      | some x => cs = (Cfg.Fn.op (fnOps ops) tag ⟨id, x⟩ t).2.1
      | none => cs = [] ∨ ∃ i, cs = [({ t with tag := tag t } : Tlp).createUr i] := by
  obtain ⟨ports', cs, i1, i2, ic, is, ik, i3, i4⟩ := cfgOp_spec ops tag hh hp hi h
  have ht : (Cfg.toType0 (tag t) t).fmtType = some .CFG_READ_0 := by rw [toType0_cfg h]; exact TlpType.ofPair_mk _
  obtain ⟨r1, r2⟩ := served_read ops ht
  refine ⟨ports', cs, i1, ⟨i2, is, fun id' hr => ?_⟩, ic, ?_, i4⟩
  · by_cases he : id' = id
    · subst he; exact ic (right_first hr)
    · exact ik id' he (fun _ dsp f _ => by rw [r2]; exact ⟨rfl, fun _ => Iff.rfl⟩) hr
  · rw [i3, r1, r2, upd_id]

/-- `config_read` of any bytes. -/
theorem node_read (ops : CapOps σ) (tag : Tlp → Nat) {host : BrFn σ} (hh : CfgHost host) {ports : Ports σ} (hp : CfgPorts ports)
    {id : PcieId} (hi : CfgId id) {x : Fn σ} (hx : ports.bus.first (id.bus = 0) id = some x) (addr length : Nat)
    (hreg : ∀ a, addr ≤ a → a < addr + length → x.read ops (a / 4) < 2 ^ 32) :
    ∃ ports', Cfg.read (Node.cfgOp ops tag) (.sw host ports) id addr length = .ok (.sw host ports', Mem.read (cfgBytes (fnOps ops) x) addr length) ∧
      After ports ports' ∧ ports'.bus = ports.bus := by
  obtain ⟨w', h, ports', rfl, h1, h2⟩ := Cfg.read_ok (Node.cfgOp ops tag)
    (fun w => ∃ ports', w = .sw host ports' ∧ After ports ports' ∧ ports'.bus = ports.bus) (cfgBytes (fnOps ops) x) id length addr (.sw host ports)
    ⟨ports, rfl, After.refl hp, rfl⟩ (by
      rintro w a L ⟨p, rfl, q1, q2⟩ h0 h1 h2 h3
      have hq := readTlp_req hi a L h0 h3
      obtain ⟨hok, f1, f2, -⟩ := Cfg.readTlp_ok id a L h0 h3
      generalize Cfg.readTlp id a L = t at *
      obtain ⟨p', cs, i1, i2, ic, i3, i4⟩ := cfgOp_read ops tag hh q1.cfg hi hq
      rw [q2, hx] at i4
      simp only at i4
      obtain ⟨c, e1, e2, e3, e4, e5⟩ := Cfg.op_read (fnOps ops) ⟨id, x⟩ tag t hok.type (by rw [f2]; exact ⟨rfl, rfl⟩) hok.aligned
        (by rw [f1, Nat.mul_div_cancel _ (by omega)]; exact hreg a h1 (by omega))
      rw [e1] at i4
      simp only at i4
      rw [i1, i4]
      refine ⟨⟨p', rfl, q1.trans i2, by rw [i3, q2]⟩, c.data, ?_, e4, ?_⟩
      · unfold Cfg.dword
        simp only [e2, e3]
        rw [if_neg (by simp), if_neg (by simp), if_neg (by simp)]
      · intro i hi
        rw [e5 _ (by omega), f1]
        congr 2; omega)
  exact ⟨ports', h, h1, h2⟩

theorem node_read_none (ops : CapOps σ) (tag : Tlp → Nat) {host : BrFn σ} (hh : CfgHost host) {ports : Ports σ} (hp : CfgPorts ports)
    {id : PcieId} (hi : CfgId id) (hx : ports.bus.first (id.bus = 0) id = none) (addr length : Nat) :
    ∃ ports', Cfg.read (Node.cfgOp ops tag) (.sw host ports) id addr length = .ok (.sw host ports', List.replicate length 0xff) ∧
      After ports ports' ∧ ports'.bus = ports.bus := by
  obtain ⟨w', h, ports', rfl, h1, h2⟩ := Cfg.read_ok (Node.cfgOp ops tag)
    (fun w => ∃ ports', w = .sw host ports' ∧ After ports ports' ∧ ports'.bus = ports.bus) (fun _ => 0xff) id length addr (.sw host ports)
    ⟨ports, rfl, After.refl hp, rfl⟩ (by
      rintro w a L ⟨p, rfl, q1, q2⟩ h0 h1 h2 h3
      have hq := readTlp_req hi a L h0 h3
      generalize Cfg.readTlp id a L = t at *
      obtain ⟨p', cs, i1, i2, ic, i3, i4⟩ := cfgOp_read ops tag hh q1.cfg hi hq
      rw [q2, hx] at i4
      rw [i1]
      refine ⟨⟨p', rfl, q1.trans i2, by rw [i3, q2]⟩, [0xff, 0xff, 0xff, 0xff], ?_, rfl, ?_⟩
      · rcases i4 with rfl | ⟨i, rfl⟩
        · rfl
        · generalize hc : ({ t with tag := tag t } : Tlp).createUr i = c
          have hs : c.status = CplStatus.UR := by rw [← hc]; rfl
          unfold Cfg.dword
          simp only [hs]
          rw [if_neg (by simp), if_pos (by decide)]
      · intro i hi
        generalize hx : a % 4 + i = x
        have hx4 : x < 4 := by omega
        clear hx
        revert hx4; revert x
        decide)
  refine ⟨ports', ?_, h1, h2⟩
  rw [h]
  congr 2
  apply List.ext_getElem (by simp [Mem.read_length])
  intro i h1 h2
  rw [Mem.read_getElem, List.getElem_replicate]

/-- One write request. -/
theorem cfgOp_write (ops : CapOps σ) (tag : Tlp → Nat) {host : BrFn σ} (hh : CfgHost host) {ports : Ports σ} (hp : CfgPorts ports)
    {id : PcieId} (hi : CfgId id) {t : Tlp} (h : CfgTlp true id t) :
    ∃ ports' ge gb, (Node.cfgOp ops tag (.sw host ports) t).1 = .sw host ports' ∧ CfgPorts ports' ∧
      (ports.bus.first (decide (id.bus = 0)) id ≠ none → Right ports' id) ∧
      ports.same ports' ∧ (∀ id', id' ≠ id → (id'.bus ≠ 0 → ∀ dsp f, ports.bus.first (id.bus = 0) id = some (.br dsp f) → Stable id' f (gb f)) →
        Right ports id' → Right ports' id') ∧
      ports'.bus = ports.bus.upd ge gb (id.bus = 0) id ∧ ∀ x : Fn σ, (Cfg.Fn.op (fnOps ops) tag ⟨id, x⟩ t).1 = ⟨id, x.mapRegs ge gb⟩ := by
  obtain ⟨ports', cs, i1, i2, ic, is, ik, i3, i4⟩ := cfgOp_spec ops tag hh hp hi h
  refine ⟨ports', _, _, by rw [i1], i2, ic, is, ik, i3, fun x => ?_⟩
  have hc0 : (Cfg.toType0 (tag t) t).completer_id = id := by rw [toType0_cfg h]; exact h.to_
  rw [fnOp_serve _ _ hc0.symm]
  have := serve_map ops (Cfg.toType0 (tag t) t) x
  rw [hc0] at this
  exact this

theorem writeReqs_req {id : PcieId} (hi : CfgId id) (data : List UInt8) (n addr : Nat) : ∀ t ∈ Cfg.writeReqs id data n addr, CfgTlp true id t := by
  induction hk : data.length - n using Nat.strongRecOn generalizing n addr with
  | ind k ih =>
    rw [Cfg.writeReqs]
    by_cases h : n < data.length
    · simp only [h, dite_true]
      obtain ⟨l1, l2, l3, -⟩ := IoRegion.len_facts addr (data.length - n) (by omega)
      generalize IoRegion.len addr (data.length - n) = L at l1 l2 l3 ⊢
      have hs : (slice data n (n + L)).length = L := by rw [slice_length _ _ _ (by omega)]; omega
      intro t ht
      rcases List.mem_cons.1 ht with rfl | ht
      · exact writeTlp_req hi addr _ (by omega) (by omega)
      · exact ih (data.length - (n + L)) (by omega) (n + L) (addr + L) rfl t ht
    · simp only [h, dite_false]
      exact fun t ht => nomatch ht

/-- `config_write` of any bytes. -/
theorem node_write (ops : CapOps σ) (tag : Tlp → Nat) {host : BrFn σ} (hh : CfgHost host) {id : PcieId} (hi : CfgId id) (addr : Nat)
    (data : List UInt8) {ports : Ports σ} (hp : CfgPorts ports) :
    ∃ ports' ge gb, Cfg.write (Node.cfgOp ops tag) (.sw host ports) id addr data = .sw host ports' ∧ CfgPorts ports' ∧
      ports'.bus = ports.bus.upd ge gb (id.bus = 0) id ∧
      (∀ x : Fn σ, Cfg.write (Cfg.Fn.op (fnOps ops) tag) ⟨id, x⟩ id addr data = ⟨id, x.mapRegs ge gb⟩) ∧
      (data ≠ [] → ports.bus.first (id.bus = 0) id ≠ none → ports'.idAt (id.bus = 0) id = some id) := by
  have hne : data ≠ [] → Cfg.writeReqs id data 0 addr ≠ [] := by
    intro h
    rw [Cfg.writeReqs, dif_pos (List.length_pos_iff.2 h)]
    exact List.cons_ne_nil _ _
  unfold Cfg.write
  have hall := writeReqs_req hi data 0 addr
  revert hall hne
  generalize Cfg.writeReqs id data 0 addr = l
  intro hne hall
  have main : ∀ (l : List Tlp), (∀ t ∈ l, CfgTlp true id t) → ∀ ports : Ports σ, CfgPorts ports →
      ∃ ports' ge gb, l.foldl (fun w req => (Node.cfgOp ops tag w req).1) (.sw host ports) = .sw host ports' ∧ CfgPorts ports' ∧
      ports'.bus = ports.bus.upd ge gb (id.bus = 0) id ∧
      (∀ x : Fn σ, l.foldl (fun w req => (Cfg.Fn.op (fnOps ops) tag w req).1) ⟨id, x⟩ = ⟨id, x.mapRegs ge gb⟩) ∧
      (l ≠ [] → ports.bus.first (id.bus = 0) id ≠ none → ports'.idAt (id.bus = 0) id = some id) := by
    intro l
    induction l with
    | nil =>
      intro _ ports hp
      exact ⟨ports, fun f => f, fun f => f, rfl, hp, upd_id.symm, fun x => by cases x <;> rfl, fun h => absurd rfl h⟩
    | cons t l ih =>
      intro hall ports hp
      obtain ⟨p1, ge, gb, i1, i2, i5, -, -, i3, i4⟩ := cfgOp_write ops tag hh hp hi (hall t (by simp))
      obtain ⟨p2, ge', gb', j1, j2, j3, j4, j5⟩ := ih (fun t ht => hall t (by simp [ht])) p1 i2
      refine ⟨p2, fun f => ge' (ge f), fun f => gb' (gb f), ?_, j2, ?_, ?_, ?_⟩
      · rw [List.foldl_cons, i1]; exact j1
      · rw [j3, i3, upd_upd]
      · intro x
        rw [List.foldl_cons, i4, j4]
        cases x <;> rfl
      · intro _ hf
        by_cases hl : l = []
        · subst hl
          have e : p1 = p2 := by cases j1; rfl
          exact e ▸ i5 hf
        · refine j5 hl ?_
          rw [i3, first_upd]
          intro h
          exact hf (Option.map_eq_none_iff.1 h)
  obtain ⟨p, ge, gb, k1, k2, k3, k4, k5⟩ := main l hall ports hp
  exact ⟨p, ge, gb, k1, k2, k3, k4, fun h => k5 (hne h)⟩

/-- What every request of a read establishes holds after a read of at least one byte. -/
theorem readAll_post {W : Type} (op : Cfg.Op W) (I P : W → Prop) : ∀ (l : List (Nat × Tlp)), (∀ w, ∀ t ∈ l, I w → I (op w t.2).1 ∧ P (op w t.2).1) →
    l ≠ [] → ∀ {w w' : W} {d d' : List UInt8}, I w → Cfg.readAll op w l d = .ok (w', d') → P w' := by
  intro l
  induction l with
  | nil => intro _ h; exact absurd rfl h
  | cons t l ih =>
    intro hop _ w w' d d' hI h
    obtain ⟨pad, t⟩ := t
    obtain ⟨h1, h2⟩ := hop w (pad, t) (by simp) hI
    rw [Cfg.readAll] at h
    simp only at h
    split at h
    · cases h
    · by_cases hl : l = []
      · subst hl
        rw [Cfg.readAll] at h
        cases h
        exact h2
      · exact ih (fun w t ht => hop w t (by simp [ht])) hl h1 h

theorem readReqs_req {id : PcieId} (hi : CfgId id) (length n addr : Nat) : ∀ t ∈ Cfg.readReqs id length n addr, CfgTlp false id t.2 := by
  induction hk : length - n using Nat.strongRecOn generalizing n addr with
  | ind k ih =>
    rw [Cfg.readReqs]
    by_cases h : n < length
    · simp only [h, dite_true]
      obtain ⟨l1, l2, l3, -⟩ := IoRegion.len_facts addr (length - n) (by omega)
      generalize IoRegion.len addr (length - n) = L at l1 l2 l3 ⊢
      intro t ht
      rcases List.mem_cons.1 ht with rfl | ht
      · exact readTlp_req hi addr _ (by omega) (by omega)
      · exact ih (length - (n + L)) (by omega) (n + L) (addr + L) rfl t ht
    · simp only [h, dite_false]
      exact fun t ht => nomatch ht

/-- A read of at least one byte gives the function its number. -/
theorem node_read_taken (ops : CapOps σ) (tag : Tlp → Nat) {host : BrFn σ} (hh : CfgHost host) {ports : Ports σ} (hp : CfgPorts ports)
    {id : PcieId} (hi : CfgId id) {addr length : Nat} (hl : 0 < length) (hx : ports.bus.first (id.bus = 0) id ≠ none) {ports' : Ports σ} {bytes : List UInt8}
    (h : Cfg.read (Node.cfgOp ops tag) (.sw host ports) id addr length = .ok (.sw host ports', bytes)) : ports'.idAt (id.bus = 0) id = some id := by
  unfold Cfg.read at h
  split at h
  · cases h
  · rename_i w d hr
    cases h
    have hne : Cfg.readReqs id length 0 addr ≠ [] := by
      rw [Cfg.readReqs, dif_pos hl]
      exact List.cons_ne_nil _ _
    obtain ⟨q, e, hq⟩ := readAll_post (Node.cfgOp ops tag) (fun w => ∃ q, w = .sw host q ∧ CfgPorts q ∧ q.bus = ports.bus)
      (fun w => ∃ q, w = .sw host q ∧ q.idAt (id.bus = 0) id = some id) _ (by
        rintro w t ht ⟨q, rfl, q1, q2⟩
        obtain ⟨q', cs, i1, i2, ic, i3, -⟩ := cfgOp_read ops tag hh q1 hi (readReqs_req hi _ _ _ t ht)
        rw [i1]
        exact ⟨⟨q', rfl, i2.cfg, by rw [i3, q2]⟩, q', rfl, ic (by rw [q2]; exact hx)⟩) hne ⟨ports, rfl, hp, rfl⟩ hr
    cases e
    exact hq

end Pcie
