/- Configuration requests in the hierarchy: what becomes of one request. -/
import Verif.Lemmas.CfgFabric
namespace Pcie
open Spec Phys
variable {σ : Type}

/-! ### The handlers -/

/-- A handler that gets a request for it: it has taken the number in it, and its completions can go up. -/
theorem serve_facts {ρ : Type} (ops : CapOps ρ) {wr : Bool} {t : Tlp} (h : CfgReq wr true t) (f : Cfg.Fn ρ)
    (hk : f.id.device = t.completer_id.device ∧ f.id.function = t.completer_id.function) :
    (Cfg.Fn.serve ops f t).2 = (Cfg.Fn.serve ops ⟨t.completer_id, f.regs⟩ t).2 ∧
    (Cfg.Fn.serve ops f t).1.regs = (Cfg.Fn.serve ops ⟨t.completer_id, f.regs⟩ t).1.regs ∧
    (Cfg.Fn.serve ops f t).1.id = t.completer_id ∧
    (Cfg.Fn.serve ops f t).1.id.device = f.id.device ∧ (Cfg.Fn.serve ops f t).1.id.function = f.id.function ∧
    ∀ c ∈ (Cfg.Fn.serve ops f t).2, CfgCpl c := by
  obtain ⟨⟨bus, dev, fn⟩, regs⟩ := f
  simp only at hk
  have hcap : (if bus ≠ t.completer_id.bus then ({ id := ⟨t.completer_id.bus, dev, fn⟩, regs := regs } : Cfg.Fn ρ)
      else ⟨⟨bus, dev, fn⟩, regs⟩) = ⟨t.completer_id, regs⟩ := by
    have e : t.completer_id = ⟨t.completer_id.bus, dev, fn⟩ := by rw [hk.1, hk.2]
    split
    · rw [← e]
    · rename_i hh
      rw [e, Classical.not_not.1 hh]
  have hck : ∀ c : Tlp, c.fmtType = some .CPL_DATA → c.length * 4 = c.data.length → c.data.length ≤ c.byte_count → c.check = .ok true := by
    intro c h1 h2 h3
    have hv := fmtType_value h1
    have hf : c.fmt = 2 := congrArg Prod.fst hv
    unfold Tlp.check
    rw [h1]
    simp [TlpType.THREE_DW_DATA, TlpType.FOUR_DW_DATA, hf, h2]
    omega
  have hck0 : ∀ c : Tlp, c.fmtType = some .CPL → c.length = 0 → c.check = .ok true := by
    intro c h1 h2
    have hv := fmtType_value h1
    have hf : c.fmt = 0 := congrArg Prod.fst hv
    unfold Tlp.check
    rw [h1]
    simp [TlpType.THREE_DW_DATA, TlpType.FOUR_DW_DATA, hf, h2]
  unfold Cfg.Fn.serve
  rw [h.typ]
  cases wr
  · simp only [cfgTy, if_true, Cfg.Fn.handleRead, hk.1.symm, hk.2.symm, and_self, hcap, ne_eq, not_true_eq_false, if_false]
    cases hp : Cfg.packLE (ops.read regs (t.address >>> 2)) with
    | error e => exact ⟨trivial, trivial, by show (⟨_, _, _⟩ : PcieId) = _; rw [hk.1, hk.2], rfl, rfl, fun c hc => by cases hc⟩
    | ok d =>
      refine ⟨trivial, trivial, rfl, hk.1.symm, hk.2.symm, ?_⟩
      intro c hc
      rw [List.mem_singleton] at hc
      subst hc
      have hd : d.length = 4 := by
        unfold Cfg.packLE at hp
        split at hp
        · cases hp; rfl
        · cases hp
      have ht : ({ (t.createCompletionData t.completer_id).setData d with byte_count := 4 } : Tlp).fmtType = some .CPL_DATA :=
        show TlpType.ofPair 2 10 = _ by decide
      refine ⟨.inr ht, hck _ ht ?_ (Nat.le_of_eq hd), rfl, rfl, h.req⟩
      show d.length / 4 * 4 = d.length
      rw [hd]
  · simp only [cfgTy, reduceCtorEq, Option.some.injEq, if_false, if_true, Cfg.Fn.handleWrite, hk.1.symm, hk.2.symm, and_self, hcap, ne_eq,
      not_true_eq_false]
    cases hp : Cfg.unpackLE t.data with
    | error e => exact ⟨trivial, trivial, by show (⟨_, _, _⟩ : PcieId) = _; rw [hk.1, hk.2], rfl, rfl, fun c hc => by cases hc⟩
    | ok d =>
      refine ⟨trivial, trivial, rfl, hk.1.symm, hk.2.symm, ?_⟩
      intro c hc
      rw [List.mem_singleton] at hc
      subst hc
      have ht : (t.createCompletion t.completer_id).fmtType = some .CPL := show TlpType.ofPair 0 10 = _ by decide
      exact ⟨.inl ht, hck0 _ ht rfl, rfl, rfl, h.req⟩

/-- The registers and completions of the function that gets the request. -/
def served (ops : CapOps σ) (t : Tlp) (x : Fn σ) : List Tlp := (Cfg.Fn.serve (fnOps ops) ⟨t.completer_id, x⟩ t).2
@[inherit_doc served] def servedEp (ops : CapOps σ) (t : Tlp) (f : Ep σ) : Ep σ :=
  (Cfg.Fn.serve ⟨Ep.read ops, Ep.write ops⟩ ⟨t.completer_id, f⟩ t).1.regs
@[inherit_doc served] def servedBr (ops : CapOps σ) (t : Tlp) (f : Br σ) : Br σ :=
  (Cfg.Fn.serve ⟨Br.read ops, Br.write ops⟩ ⟨t.completer_id, f⟩ t).1.regs

theorem served_ep (ops : CapOps σ) (t : Tlp) (f : Ep σ) :
    served ops t (.ep f) = (Cfg.Fn.serve ⟨Ep.read ops, Ep.write ops⟩ ⟨t.completer_id, f⟩ t).2 := by
  unfold served Cfg.Fn.serve Cfg.Fn.handleRead Cfg.Fn.handleWrite
  simp only [ne_eq, not_true_eq_false, if_false, and_self, if_true, fnOps, Fn.read]
  by_cases h1 : t.fmtType = some .CFG_READ_0
  · simp only [h1, if_true]
    cases Cfg.packLE (f.read ops (t.address >>> 2)) <;> rfl
  · by_cases h2 : t.fmtType = some .CFG_WRITE_0
    · simp only [h2, if_true, reduceCtorEq, Option.some.injEq, if_false]
      cases Cfg.unpackLE t.data <;> rfl
    · simp only [h1, h2, if_false]

theorem served_br (ops : CapOps σ) (t : Tlp) (dsp : Bool) (f : Br σ) :
    served ops t (.br dsp f) = (Cfg.Fn.serve ⟨Br.read ops, Br.write ops⟩ ⟨t.completer_id, f⟩ t).2 := by
  unfold served Cfg.Fn.serve Cfg.Fn.handleRead Cfg.Fn.handleWrite
  simp only [ne_eq, not_true_eq_false, if_false, and_self, if_true, fnOps, Fn.read]
  by_cases h1 : t.fmtType = some .CFG_READ_0
  · simp only [h1, if_true]
    cases Cfg.packLE (f.read ops (t.address >>> 2)) <;> rfl
  · by_cases h2 : t.fmtType = some .CFG_WRITE_0
    · simp only [h2, if_true, reduceCtorEq, Option.some.injEq, if_false]
      cases Cfg.unpackLE t.data <;> rfl
    · simp only [h1, h2, if_false]

theorem setFmt_self {wr : Bool} {t : Tlp} (h : CfgReq wr true t) : t.setFmtType (cfgTy wr true) = t := by
  have hv := fmtType_value h.typ
  have h1 : t.fmt = (cfgTy wr true).value.1 := congrArg Prod.fst hv
  have h2 : t.type = (cfgTy wr true).value.2 := congrArg Prod.snd hv
  unfold Tlp.setFmtType
  rw [← h1, ← h2]

/-- What becomes of the request `t` on the bus `b`; `b'` is the bus afterwards and `cs` are the completions. -/
def Outcome (ops : CapOps σ) (wr z : Bool) (t : Tlp) (b b' : Phys σ) (cs : List Tlp) : Prop :=
  let t0 := t.setFmtType (cfgTy wr true)
  b' = b.upd (servedEp ops t0) (servedBr ops t0) z t.completer_id ∧
    match b.first z t.completer_id with
    | some x => cs = served ops t0 x
    | none => cs = [] ∨ ∃ i, cs = [t.createUr i]

/-- The bridge handles the request itself. -/
theorem brServe {ops : CapOps σ} {wr : Bool} {t : Tlp} (h : CfgReq wr true t) {b : BrFn σ} (hb : CfgHandlers b.handlers)
    (hk : b.id.device = t.completer_id.device ∧ b.id.function = t.completer_id.function) :
    (b.serve ops t).1.toBr = servedBr ops t b.toBr ∧ (b.serve ops t).1.root = b.root ∧ (b.serve ops t).1.handlers = b.handlers ∧
    (b.serve ops t).1.id.device = b.id.device ∧ (b.serve ops t).1.id.function = b.id.function ∧
    (b.serve ops t).1.id = t.completer_id ∧
    (∀ c ∈ (b.serve ops t).2, CfgCpl c) ∧ (∀ dsp, (b.serve ops t).2 = served ops t (.br dsp b.toBr)) := by
  obtain ⟨s1, s2, s3, s4, s5, s6⟩ := serve_facts ⟨Br.read ops, Br.write ops⟩ h ⟨b.id, b.toBr⟩ hk
  exact ⟨s2, rfl, rfl, s4, s5, s3, s6, fun dsp => by rw [served_br]; exact s1⟩

theorem cfgBridge_serve {ops : CapOps σ} {wr : Bool} {t : Tlp} (h : CfgReq wr true t) {b : BrFn σ} (hb : CfgBridge b)
    (hk : b.id.device = t.completer_id.device ∧ b.id.function = t.completer_id.function) : CfgBridge (b.serve ops t).1 := by
  obtain ⟨s1, s2, s3, s4, s5, s6, -⟩ := brServe (ops := ops) h hb.handlers hk
  exact ⟨by rw [s2]; exact hb.notRoot, by rw [s3]; exact hb.handlers, fun _ => by rw [s6]; exact h.ne⟩

/-- A bridge that has the bus of a type 1 request behind it has a number. -/
theorem behind_taken {t : Tlp} (h : t.completer_id.bus ≠ 0) {b : BrFn σ} (hb : CfgBridge b)
    (hk : behind b.toBr t.completer_id = true) : b.id ≠ ⟨0, 0, 0⟩ := by
  apply hb.taken
  simp only [behind, decide_eq_true_eq] at hk
  omega

/-! ### What stays as it is -/

/-- The functions differ in registers and bus number only. -/
def EpFn.same (f f' : EpFn σ) : Prop := f'.id.device = f.id.device ∧ f'.id.function = f.id.function ∧ f'.handlers = f.handlers
@[inherit_doc EpFn.same] def BrFn.same (b b' : BrFn σ) : Prop :=
  b'.id.device = b.id.device ∧ b'.id.function = b.id.function ∧ b'.root = b.root ∧ b'.handlers = b.handlers

@[inherit_doc EpFn.same] def fnsSame (l l' : List (EpFn σ)) : Prop :=
  l'.length = l.length ∧ ∀ (i : Nat) (f f' : EpFn σ), l[i]? = some f → l'[i]? = some f' → f.same f'

mutual
@[inherit_doc EpFn.same] def Node.same : Node σ → Node σ → Prop
  | .none, n => n = .none
  | .dev _ fns, n => ∃ bus' fns', n = .dev bus' fns' ∧ fnsSame fns fns'
  | .sw up ports, n => ∃ up' ports', n = .sw up' ports' ∧ up.same up' ∧ ports.same ports'
@[inherit_doc EpFn.same] def Ports.same : Ports σ → Ports σ → Prop
  | .nil, p => p = .nil
  | .cons b n rest, p => ∃ b' n' rest', p = .cons b' n' rest' ∧ b.same b' ∧ n.same n' ∧ rest.same rest'
end

mutual
theorem Node.same_refl : ∀ n : Node σ, n.same n
  | .none => by rw [Node.same]
  | .dev bus fns => by
    rw [Node.same]
    refine ⟨bus, fns, rfl, rfl, fun i f f' h h' => ?_⟩
    rw [h] at h'; cases h'
    exact ⟨rfl, rfl, rfl⟩
  | .sw up ports => by rw [Node.same]; exact ⟨up, ports, rfl, ⟨rfl, rfl, rfl, rfl⟩, Ports.same_refl ports⟩
theorem Ports.same_refl : ∀ p : Ports σ, p.same p
  | .nil => by rw [Ports.same]
  | .cons b n rest => by rw [Ports.same]; exact ⟨b, n, rest, rfl, ⟨rfl, rfl, rfl, rfl⟩, Node.same_refl n, Ports.same_refl rest⟩
end

mutual
theorem Node.same_trans : ∀ (a : Node σ) {b c : Node σ}, a.same b → b.same c → a.same c
  | .none, b, c, h, h' => by rw [Node.same] at h; subst h; exact h'
  | .dev _ l, b, c, h, h' => by
    rw [Node.same] at h ⊢
    obtain ⟨_, l', rfl, h1, h2⟩ := h
    rw [Node.same] at h'
    obtain ⟨bus, l'', rfl, h1', h2'⟩ := h'
    refine ⟨bus, l'', rfl, h1'.trans h1, fun i f f'' hf hf'' => ?_⟩
    obtain ⟨hi, -⟩ := List.getElem?_eq_some_iff.1 hf
    have e : l'[i]? = some l'[i] := List.getElem?_eq_getElem (by rw [h1]; exact hi)
    obtain ⟨e1, e2, e3⟩ := h2 i f l'[i] hf e
    obtain ⟨d1, d2, d3⟩ := h2' i l'[i] f'' e hf''
    exact ⟨d1.trans e1, d2.trans e2, d3.trans e3⟩
  | .sw _ p, b, c, h, h' => by
    rw [Node.same] at h ⊢
    obtain ⟨_, _, rfl, ⟨e1, e2, e3, e4⟩, e⟩ := h
    rw [Node.same] at h'
    obtain ⟨_, _, rfl, ⟨d1, d2, d3, d4⟩, d⟩ := h'
    exact ⟨_, _, rfl, ⟨d1.trans e1, d2.trans e2, d3.trans e3, d4.trans e4⟩, Ports.same_trans p e d⟩
theorem Ports.same_trans : ∀ (a : Ports σ) {b c : Ports σ}, a.same b → b.same c → a.same c
  | .nil, b, c, h, h' => by rw [Ports.same] at h; subst h; exact h'
  | .cons _ n r, b, c, h, h' => by
    rw [Ports.same] at h ⊢
    obtain ⟨_, _, _, rfl, ⟨e1, e2, e3, e4⟩, e, e'⟩ := h
    rw [Ports.same] at h'
    obtain ⟨_, _, _, rfl, ⟨d1, d2, d3, d4⟩, d, d'⟩ := h'
    exact ⟨_, _, _, rfl, ⟨d1.trans e1, d2.trans e2, d3.trans e3, d4.trans e4⟩, Node.same_trans n e d, Ports.same_trans r e' d'⟩
end

/-- The bus number registers of the bridge lead a request for `id` the same way. -/
def Stable (id : PcieId) (f f' : Br σ) : Prop := behind f' id = behind f id ∧ (behind f id = true → (id.bus = f'.secBus ↔ id.bus = f.secBus))

/-- The numbers of functions that are right stay so: `i` and `i'` are the numbers on the bus `b` before and after the request. -/
def Kept (ops : CapOps σ) (wr z : Bool) (t : Tlp) (b : Phys σ) (i i' : Bool → PcieId → Option PcieId) : Prop :=
  ∀ id z', id ≠ t.completer_id → (z = true → z' = true → id.bus = t.completer_id.bus) → (z' = false → id.bus ≠ 0) →
    (id.bus ≠ 0 → ∀ dsp f, b.first z t.completer_id = some (.br dsp f) → Stable id f (servedBr ops (t.setFmtType (cfgTy wr true)) f)) →
    i z' id = some id → i' z' id = some id

theorem Kept.rfl {ops : CapOps σ} {wr z : Bool} {t : Tlp} {b : Phys σ} {i : Bool → PcieId → Option PcieId} : Kept ops wr z t b i i :=
  fun _ _ _ _ _ _ h => h

/-! ### The port that takes a request -/

/-- The first port that takes the request. -/
def Ports.pick (z : Bool) (id : PcieId) : Ports σ → Option Nat
  | .nil => none
  | .cons b _ rest =>
    if (z = true ∧ b.id.device = id.device ∧ b.id.function = id.function) ∨ (z = false ∧ behind b.toBr id = true) then some 0
    else (rest.pick z id).map (· + 1)

theorem claims_cfg {wr z : Bool} {t : Tlp} (h : CfgReq wr z t) (b : BrFn σ) :
    Sw.claims (⟨b, false⟩ : SwPort σ) t = .ok (decide ((z = true ∧ b.id.device = t.completer_id.device ∧ b.id.function = t.completer_id.function) ∨
      (z = false ∧ behind b.toBr t.completer_id = true))) := by
  unfold Sw.claims
  simp only [matchTlp_cfg h, matchSecondary_cfg h]
  cases z
  · simp
  · by_cases hh : b.id.device = t.completer_id.device ∧ b.id.function = t.completer_id.function <;> simp [hh]

theorem find_cfg {wr z : Bool} {t : Tlp} (h : CfgReq wr z t) : ∀ (ports : Ports σ) (i : Nat),
    Sw.find 0 t (i + 1) (ports.list.map fun x => (⟨x.1, false⟩ : SwPort σ)) = .ok ((ports.pick z t.completer_id).map (· + (i + 1))) := by
  intro ports
  induction ports using Ports.rec (motive_1 := fun _ => True) with
  | none | dev | sw => trivial
  | nil => intro i; rfl
  | cons b n rest _ ih =>
    intro i
    simp only [Ports.list, List.map_cons, Sw.find, Nat.add_eq_zero_iff, Nat.one_ne_zero, and_false, if_false, claims_cfg h, Ports.pick]
    by_cases hh : (z = true ∧ b.id.device = t.completer_id.device ∧ b.id.function = t.completer_id.function) ∨
      (z = false ∧ behind b.toBr t.completer_id = true)
    · simp [hh]
    · rw [decide_eq_false hh, if_neg hh, ih (i + 1)]
      simp only [Option.map_map]
      congr 1
      cases rest.pick z t.completer_id with
      | none => rfl
      | some k => simp only [Option.map_some, Function.comp]; congr 1; omega

theorem route_cfg {wr z : Bool} {t : Tlp} (h : CfgReq wr z t) (up : BrFn σ) (ports : Ports σ) :
    Sw.route (swPorts up ports) 0 t = .ok (match ports.pick z t.completer_id with
      | some k => .to (k + 1)
      | none => .drop [t.createUr up.id]) := by
  unfold Sw.route
  have : Sw.find 0 t 0 (swPorts up ports) = .ok ((ports.pick z t.completer_id).map (· + 1)) := by
    rw [swPorts, Sw.find, if_pos rfl]
    exact find_cfg h ports 0
  rw [this]
  cases ports.pick z t.completer_id with
  | none => simp only [Option.map_none, answerUr_cfg h]; rfl
  | some k => rfl

theorem pick_none {z : Bool} {id : PcieId} : ∀ {ports : Ports σ}, ports.pick z id = none → ports.bus.first z id = none := by
  intro ports
  induction ports using Ports.rec (motive_1 := fun _ => True) with
  | none | dev | sw => trivial
  | nil => intro _; rfl
  | cons b n rest _ ih =>
    intro h
    rw [Ports.pick] at h
    split at h
    · cases h
    · rename_i hh
      rw [Ports.bus, first, if_neg (fun h => hh (.inl h)), if_neg (fun h => hh (.inr h))]
      exact ih (by simpa using h)

/-! ### Devices -/

/-- Whether the function has the number in the request. -/
def EpFn.keyed (id : PcieId) (f : EpFn σ) : Bool := decide (f.id.device = id.device ∧ f.id.function = id.function)

/-- The bus of a device. -/
def devBus (fns : List (EpFn σ)) : Phys σ := fns.foldr (fun f rest => .ep f.id.device f.id.function f.toEp rest) .nil

theorem devBus_false (fns : List (EpFn σ)) (id : PcieId) : (devBus fns).first false id = none := by
  induction fns with
  | nil => rfl
  | cons f fns ih =>
    show (Phys.ep f.id.device f.id.function f.toEp (devBus fns)).first false id = none
    rw [first, if_neg (by simp)]; exact ih

theorem devBus_none {fns : List (EpFn σ)} {id : PcieId} (h : fns.findIdx? (EpFn.keyed id) = none) : (devBus fns).first true id = none := by
  induction fns with
  | nil => rfl
  | cons f fns ih =>
    rw [List.findIdx?_cons] at h
    split at h
    · cases h
    · rename_i hk
      show (Phys.ep f.id.device f.id.function f.toEp (devBus fns)).first true id = none
      rw [first, if_neg (by rintro ⟨-, hh⟩; exact hk (decide_eq_true hh))]
      exact ih (by simpa using h)

theorem devBus_some {fns : List (EpFn σ)} {id : PcieId} {k : Nat} (h : fns.findIdx? (EpFn.keyed id) = some k) :
    ∃ f, fns[k]? = some f ∧ (f.id.device = id.device ∧ f.id.function = id.function) ∧ (devBus fns).first true id = some (.ep f.toEp) ∧
      ∀ (ge : Ep σ → Ep σ) (gb : Br σ → Br σ) (f' : EpFn σ), f'.id.device = f.id.device → f'.id.function = f.id.function → f'.toEp = ge f.toEp →
        devBus (fns.set k f') = (devBus fns).upd ge gb true id := by
  induction fns generalizing k with
  | nil => cases h
  | cons f fns ih =>
    have hc : devBus (f :: fns) = .ep f.id.device f.id.function f.toEp (devBus fns) := rfl
    rw [List.findIdx?_cons] at h
    split at h
    · rename_i hk
      cases h
      have hk' : f.id.device = id.device ∧ f.id.function = id.function := of_decide_eq_true hk
      refine ⟨f, rfl, hk', ?_, ?_⟩
      · rw [hc, first, if_pos ⟨rfl, hk'⟩]
      · intro ge gb f' e1 e2 e3
        rw [hc, upd, if_pos ⟨rfl, hk'⟩, ← e1, ← e2, ← e3]
        rfl
    · rename_i hk
      simp only [Option.map_eq_some_iff] at h
      obtain ⟨k', h, rfl⟩ := h
      obtain ⟨g, i1, i2, i3, i4⟩ := ih h
      have hk' : ¬ ((true : Bool) = true ∧ f.id.device = id.device ∧ f.id.function = id.function) := by
        rintro ⟨-, hh⟩; exact hk (decide_eq_true hh)
      refine ⟨g, by simpa using i1, i2, ?_, ?_⟩
      · rw [hc, first, if_neg hk']; exact i3
      · intro ge gb f' e1 e2 e3
        rw [hc, upd, if_neg hk', ← i4 ge gb f' e1 e2 e3]
        rfl

theorem find_set {α : Type} {p p' : α → Bool} {l : List α} {k : Nat} {a a' : α} (h : l.findIdx? p = some k) (ha : l[k]? = some a)
    (hp : ∀ a, p' a = p a) (hp' : p a' = true) : (l.set k a').find? p' = some a' := by
  induction l generalizing k with
  | nil => cases h
  | cons x l ih =>
    rw [List.findIdx?_cons] at h
    split at h
    · cases h
      rw [List.set_cons_zero, List.find?_cons, hp, hp']
    · rename_i hx
      simp only [Option.map_eq_some_iff] at h
      obtain ⟨k', h, rfl⟩ := h
      rw [List.set_cons_succ, List.find?_cons, hp, Bool.eq_false_iff.2 hx]
      exact ih h (by simpa using ha)

theorem find_set_ne {α : Type} {p : α → Bool} {l : List α} {k : Nat} {a a' : α} (ha : l[k]? = some a) (hp : p a = false) (hp' : p a' = false) :
    (l.set k a').find? p = l.find? p := by
  induction l generalizing k with
  | nil => rfl
  | cons x l ih =>
    cases k with
    | zero =>
      simp only [List.getElem?_cons_zero, Option.some.injEq] at ha
      subst ha
      rw [List.set_cons_zero, List.find?_cons, List.find?_cons, hp, hp']
    | succ k =>
      rw [List.set_cons_succ, List.find?_cons, List.find?_cons, ih (by simpa using ha)]

theorem same_set {l l' : List (EpFn σ)} {k : Nat} {a a' : EpFn σ} (h : fnsSame l l')
    (ha : l'[k]? = some a) (hs : a.same a') : fnsSame l (l'.set k a') := by
  refine ⟨by rw [List.length_set]; exact h.1, fun i f f' hf hf' => ?_⟩
  rw [List.getElem?_set] at hf'
  split at hf'
  · rename_i hk
    subst hk
    split at hf'
    · cases hf'
      obtain ⟨e1, e2, e3⟩ := h.2 _ f a hf ha
      exact ⟨hs.1.trans e1, hs.2.1.trans e2, hs.2.2.trans e3⟩
    · cases hf'
  · exact h.2 i f f' hf hf'

theorem same_map {g : EpFn σ → EpFn σ} (hg : ∀ f : EpFn σ, f.same (g f)) (l : List (EpFn σ)) : fnsSame l (l.map g) := by
  refine ⟨List.length_map .., fun i f f' h h' => ?_⟩
  rw [List.getElem?_map, h] at h'
  cases h'
  exact hg f

theorem findFn_cfg {wr z : Bool} {t : Tlp} (h : CfgReq wr z t) : ∀ (fns : List (EpFn σ)) (i : Nat),
    Dev.findFn t i (fns.map EpFn.rfn) = .ok (if z = true then (fns.findIdx? (EpFn.keyed t.completer_id)).map (· + i) else none) := by
  intro fns
  induction fns with
  | nil => intro i; cases z <;> rfl
  | cons f fns ih =>
    intro i
    rw [List.map_cons, Dev.findFn, matchTlp_cfg h, List.findIdx?_cons]
    have e : decide (f.rfn.id.device = t.completer_id.device ∧ f.rfn.id.function = t.completer_id.function) = EpFn.keyed t.completer_id f := rfl
    rw [e]
    cases z with
    | false => simp only [Bool.false_and]; rw [ih]; rfl
    | true =>
      cases hk : EpFn.keyed t.completer_id f with
      | true => simp
      | false =>
        simp only [Bool.true_and, Bool.false_eq_true, if_false, if_true]
        rw [ih]
        simp only [if_true, Option.map_map]
        congr 2
        funext k
        simp only [Function.comp]
        omega

/-- The functions after the device has taken its bus number. -/
theorem latch_fns {wr z : Bool} {t : Tlp} (h : CfgReq wr z t) (bus : Nat) (fns : List (EpFn σ)) :
    ∃ g : EpFn σ → EpFn σ, (∀ f, (g f).toEp = f.toEp ∧ (g f).id.device = f.id.device ∧ (g f).id.function = f.id.function ∧ (g f).handlers = f.handlers) ∧
      (∀ f, f.after (g f).rfn = g f) ∧ (Dev.latch ⟨bus, fns.map EpFn.rfn⟩ t).fns = (fns.map g).map EpFn.rfn ∧
      (z = true → (Dev.latch ⟨bus, fns.map EpFn.rfn⟩ t).bus = t.completer_id.bus ∧ ∀ f, f.id.bus = t.completer_id.bus → g f = f) ∧
      (z = false → (Dev.latch ⟨bus, fns.map EpFn.rfn⟩ t).bus = bus ∧ ∀ f, g f = f) := by
  unfold Dev.latch
  rw [h.typ]
  cases z with
  | false =>
    refine ⟨fun f => f, fun f => ⟨rfl, rfl, rfl, rfl⟩, fun f => rfl, ?_, (fun hh => by cases hh), fun _ => ⟨?_, fun _ => rfl⟩⟩
    all_goals cases wr <;> simp [cfgTy, TlpType.isCfg0]
  | true =>
    have hc : (cfgTy wr true).isCfg0 = true := by cases wr <;> rfl
    simp only [hc, if_true, Dev.setBus]
    by_cases hb : bus ≠ t.completer_id.bus
    · refine ⟨fun f => { f with id := { f.id with bus := t.completer_id.bus } }, fun f => ⟨rfl, rfl, rfl, rfl⟩, fun f => rfl, ?_, ?_, fun hh => by cases hh⟩
      · rw [if_pos hb]
        simp only [List.map_map]
        rfl
      · intro _; rw [if_pos hb]
        refine ⟨rfl, fun f hf => ?_⟩
        rw [← hf]
    · refine ⟨fun f => f, fun f => ⟨rfl, rfl, rfl, rfl⟩, fun f => rfl, ?_, ?_, fun hh => by cases hh⟩
      · rw [if_neg hb]; simp
      · intro _; rw [if_neg hb]; exact ⟨Classical.not_not.1 hb, fun _ _ => rfl⟩

theorem zip_after {g : EpFn σ → EpFn σ} (h : ∀ f : EpFn σ, f.after (g f).rfn = g f) (fns : List (EpFn σ)) :
    List.zipWith EpFn.after fns ((fns.map g).map EpFn.rfn) = fns.map g := by
  induction fns with
  | nil => rfl
  | cons f fns ih => simp only [List.map_cons, List.zipWith_cons_cons, h, ih]

theorem devBus_map {g : EpFn σ → EpFn σ} (h : ∀ f, (g f).toEp = f.toEp ∧ (g f).id.device = f.id.device ∧ (g f).id.function = f.id.function ∧ (g f).handlers = f.handlers)
    (fns : List (EpFn σ)) : devBus (fns.map g) = devBus fns := by
  induction fns with
  | nil => rfl
  | cons f fns ih =>
    show Phys.ep (g f).id.device (g f).id.function (g f).toEp (devBus (fns.map g)) = .ep f.id.device f.id.function f.toEp (devBus fns)
    obtain ⟨h1, h2, h3, -⟩ := h f
    rw [h1, h2, h3, ih]

theorem dev_cfg (ops : CapOps σ) (bus : Nat) (fns : List (EpFn σ)) (hh : ∀ f ∈ fns, CfgHandlers f.handlers) {wr z : Bool} {t : Tlp} (h : CfgReq wr z t) :
    ∃ n' cs, (Node.dev bus fns).cfg ops t = .ok (n', cs) ∧ CfgNode n' ∧ (∀ c ∈ cs, CfgCpl c) ∧
      ((Node.dev bus fns).bus.first z t.completer_id ≠ none → n'.idAt z t.completer_id = some t.completer_id) ∧
      ((Node.dev bus fns).same n' ∧ Kept ops wr z t (Node.dev bus fns).bus (fun z id => (Node.dev bus fns).idAt z id) (fun z id => n'.idAt z id)) ∧
      Outcome ops wr z t (Node.dev bus fns).bus n'.bus cs := by
  obtain ⟨g, g1, g2, g3, g4, g5⟩ := latch_fns h bus fns
  have gs : ∀ f : EpFn σ, f.same (g f) := fun f => ⟨(g1 f).2.1, (g1 f).2.2.1, (g1 f).2.2.2⟩
  have hh' : ∀ f ∈ fns.map g, CfgHandlers f.handlers := by
    intro f hf
    obtain ⟨f0, hf0, rfl⟩ := List.mem_map.1 hf
    rw [(g1 f0).2.2.2]; exact hh f0 hf0
  have hbus : (Node.dev bus fns).bus = devBus (fns.map g) := by rw [devBus_map g1]; rw [Node.bus]; rfl
  generalize hd : Dev.latch ⟨bus, fns.map EpFn.rfn⟩ t = d at g3 g4 g5
  obtain ⟨dbus, dfns⟩ := d
  simp only at g3 g4 g5
  subst g3
  rw [hbus]
  -- the numbers after the device has taken its own
  have hkept : ∀ id z', (z = true → z' = true → id.bus = t.completer_id.bus) → (Node.dev bus fns).idAt z' id = some id →
      z' = true ∧ ∃ f, (fns.map g).find? (fun f => decide (takes z' f.id id)) = some f ∧ f.id = id ∧ id.bus = dbus := by
    intro id z' hz hi
    rw [Node.idAt, Option.bind_eq_some_iff] at hi
    obtain ⟨f, f1, f2⟩ := hi
    have hz' : z' = true := by
      have := List.find?_some f1
      exact (of_decide_eq_true this).1
    split at f2
    · rename_i hb
      cases f2
      refine ⟨hz', ?_⟩
      have e : (fun f' : EpFn σ => decide (takes z' f'.id f.id)) ∘ g = fun f' => decide (takes z' f'.id f.id) := by
        funext f'
        simp only [Function.comp, takes, (g1 f').2.1, (g1 f').2.2.1]
      have hgf : g f = f ∧ f.id.bus = dbus := by
        cases z with
        | false => exact ⟨(g5 rfl).2 f, by rw [(g5 rfl).1]; exact hb⟩
        | true =>
          have := hz rfl hz'
          exact ⟨(g4 rfl).2 f this, by rw [(g4 rfl).1]; exact this⟩
      exact ⟨f, by rw [List.find?_map, e, f1]; simp [hgf.1], rfl, hgf.2⟩
    · cases f2
  have hup : Dev.upstreamRecv ⟨bus, fns.map EpFn.rfn⟩ t = (match Dev.findFn t 0 ((fns.map g).map EpFn.rfn) with
      | .error e => .error e
      | .ok (some k) =>
        match ((fns.map g).map EpFn.rfn)[k]? with
        | none => .error "unreachable"
        | some f => match f.upstreamRecv t with
          | .error e => .error e
          | .ok (f, es) => .ok (⟨dbus, ((fns.map g).map EpFn.rfn).set k f⟩, some k, es)
      | .ok none => .ok (⟨dbus, (fns.map g).map EpFn.rfn⟩, none, [.release, .up (t.createUr ⟨dbus, 0, 0⟩)])) := by
    unfold Dev.upstreamRecv
    rw [assertCheck_ok h.check]
    simp only [hd, answerUr_cfg h, assertCheck_ok (ur_cpl h ⟨dbus, 0, 0⟩).check]
    rfl
  rw [findFn_cfg h] at hup
  -- nobody takes it
  have none_case : (if z = true then ((fns.map g).findIdx? (EpFn.keyed t.completer_id)).map (· + 0) else none) = none →
      (devBus (fns.map g)).first z t.completer_id = none →
      ∃ n' cs, (Node.dev bus fns).cfg ops t = .ok (n', cs) ∧ CfgNode n' ∧ (∀ c ∈ cs, CfgCpl c) ∧
        ((devBus (fns.map g)).first z t.completer_id ≠ none → n'.idAt z t.completer_id = some t.completer_id) ∧
        ((Node.dev bus fns).same n' ∧ Kept ops wr z t (devBus (fns.map g)) (fun z id => (Node.dev bus fns).idAt z id) (fun z id => n'.idAt z id)) ∧
        Outcome ops wr z t (devBus (fns.map g)) n'.bus cs := by
    intro hn hf
    rw [hn] at hup
    refine ⟨.dev dbus (fns.map g), [t.createUr ⟨dbus, 0, 0⟩], ?_, by rw [CfgNode]; exact hh', ?_, fun hn => absurd hf hn,
      ⟨by rw [Node.same]; exact ⟨_, _, rfl, same_map gs fns⟩, fun id z' _ hz _ _ hi => ?_⟩, ?_, ?_⟩
    rotate_left 2
    · obtain ⟨-, f, q1, q2, q3⟩ := hkept id z' hz hi
      simp only [Node.idAt, q1, Option.bind_some, q2]
      rw [if_pos q3]
    rotate_right 2
    · rw [Node.cfg, hup]
      simp only [zip_after g2]
      rfl
    · intro c hc
      rw [List.mem_singleton] at hc
      subst hc
      exact ur_cpl h _
    · rw [upd_none hf, Node.bus]; rfl
    · rw [hf]
      exact .inr ⟨_, rfl⟩
  cases z with
  | false => exact none_case rfl (devBus_false _ _)
  | true =>
    cases hk : (fns.map g).findIdx? (EpFn.keyed t.completer_id) with
    | none => exact none_case (by rw [hk]; rfl) (devBus_none hk)
    | some k =>
      obtain ⟨f, f1, f2, f3, f4⟩ := devBus_some hk
      rw [hk] at hup
      have hmem := hh' f (List.mem_of_getElem? f1)
      have hr : (f.rfn).upstreamRecv t = .ok (f.rfn, [.release, .handler t]) := by
        unfold RFn.upstreamRecv
        rw [assertCheck_ok h.check]
        simp only [h.ep, Bool.false_eq_true, and_false, if_false, not_completion h, false_and]
        have : f.rfn.handlers = f.handlers := rfl
        rw [this, handleTlp_cfg h hmem]
      have hget : ((fns.map g).map EpFn.rfn)[k]? = some f.rfn := by rw [List.getElem?_map, f1]; rfl
      have hset : ((fns.map g).map EpFn.rfn).set k f.rfn = (fns.map g).map EpFn.rfn := by
        refine List.ext_getElem? fun i => ?_
        rw [List.getElem?_set]
        split
        · rename_i e; subst e
          rw [hget]
          obtain ⟨hl, -⟩ := List.getElem?_eq_some_iff.1 hget
          rw [if_pos hl]
        · rfl
      simp only [if_true, Option.map_some, Nat.add_zero, hget, hr, hset] at hup
      obtain ⟨s1, s2, s3, s4, s5, s6⟩ := serve_facts ⟨Ep.read ops, Ep.write ops⟩ h ⟨f.id, f.toEp⟩ f2
      have hcs : (f.serve ops t).2 = served ops t (.ep f.toEp) := by rw [served_ep]; exact s1
      have hcpl : ∀ c ∈ (f.serve ops t).2, CfgCpl c := s6
      refine ⟨.dev dbus ((fns.map g).set k (f.serve ops t).1), (f.serve ops t).2, ?_, ?_, hcpl, fun _ => ?_,
        ⟨by rw [Node.same]; exact ⟨_, _, rfl, same_set (same_map gs fns) f1 (a' := (f.serve ops t).1) ⟨s4, s5, rfl⟩⟩, fun id z' hne hz _ _ hi => ?_⟩, ?_, ?_⟩
      rotate_left 3
      · obtain ⟨hz', f', q1, q2, q3⟩ := hkept id z' hz hi
        have hb := hz rfl hz'
        have hfalse : ∀ x : PcieId, x.device = f.id.device → x.function = f.id.function → decide (takes z' x id) = false := by
          intro x x1 x2
          apply decide_eq_false
          rintro ⟨-, k1, k2⟩
          apply hne
          obtain ⟨b, d, e⟩ := id
          simp only at hb k1 k2
          subst hb
          rw [← k1, ← k2, x1, x2, f2.1, f2.2]
        simp only [Node.idAt]
        rw [find_set_ne f1 (hfalse _ rfl rfl) (hfalse _ s4 s5), q1]
        simp only [Option.bind_some, q2]
        rw [if_pos q3]
      rotate_right 3
      · rw [Node.cfg, hup]
        simp only [zip_after g2, f1]
        rw [flatMap_self (fun c hc => ?_)]
        have := (hcpl c hc).check
        unfold RFn.send
        rw [assertCheck_ok this]
        rfl
      · rw [CfgNode]
        intro f' hf'
        rcases List.mem_or_eq_of_mem_set hf' with hf' | rfl
        · exact hh' f' hf'
        · exact hmem
      · rw [Node.idAt, find_set hk f1 (p' := fun f => decide (takes true f.id t.completer_id)) (fun _ => by simp only [EpFn.keyed, takes, true_and]) (by
          have e1 : (f.serve ops t).1.id.device = f.id.device := s4
          have e2 : (f.serve ops t).1.id.function = f.id.function := s5
          simp only [EpFn.keyed, e1, e2, f2, and_self, decide_true])]
        have e3 : (f.serve ops t).1.id = t.completer_id := s3
        simp only [Option.bind_some, e3, (g4 rfl).1, if_true]
      · rw [Node.bus, setFmt_self h]
        exact f4 _ _ _ s4 s5 s2
      · rw [f3, setFmt_self h]
        exact hcs

/-! ### Hierarchies -/

/-- A function that takes a request takes no request for another function. -/
theorem takes_ne {own tid id : PcieId} {z' : Bool} (hk : own.device = tid.device ∧ own.function = tid.function) (hne : id ≠ tid)
    (hz : (true = true) → z' = true → id.bus = tid.bus) : ¬ takes z' own id := by
  rintro ⟨hz', k1, k2⟩
  have hb := hz rfl hz'
  apply hne
  obtain ⟨b, d, e⟩ := id
  obtain ⟨b', d', e'⟩ := tid
  simp only at hb k1 k2 hk
  rw [hb, ← k1, ← k2, hk.1, hk.2]

/-- What goes down through a bridge, and what comes back up. -/
theorem outcome_down {ops : CapOps σ} {wr : Bool} {t : Tlp} {b : BrFn σ} {c c' : Phys σ} {cs : List Tlp} (h : CfgReq wr false t)
    (o : Outcome ops wr (decide (t.completer_id.bus = b.secBus)) (b.convert t) c c' cs) :
    c' = c.upd (servedEp ops (t.setFmtType (cfgTy wr true))) (servedBr ops (t.setFmtType (cfgTy wr true)))
        (decide (t.completer_id.bus = b.secBus)) t.completer_id ∧
      match c.first (decide (t.completer_id.bus = b.secBus)) t.completer_id with
      | some x => cs = served ops (t.setFmtType (cfgTy wr true)) x
      | none => cs = [] ∨ ∃ i, cs = [t.createUr i] := by
  obtain ⟨-, c2, c3, c4⟩ := convert_cfg h b
  unfold Outcome at o
  simp only [c2, c3, c4] at o
  exact o

mutual
/-- What becomes of a configuration request that arrives at a component. -/
theorem Node.cfg_spec (ops : CapOps σ) : ∀ (n : Node σ), CfgNode n → ∀ {wr z : Bool} {t : Tlp}, CfgReq wr z t →
    (z = false → t.completer_id.bus ≠ 0) →
    ∃ n' cs, n.cfg ops t = .ok (n', cs) ∧ CfgNode n' ∧ (∀ c ∈ cs, CfgCpl c) ∧
      (n.bus.first z t.completer_id ≠ none → n'.idAt z t.completer_id = some t.completer_id) ∧
      (n.same n' ∧ Kept ops wr z t n.bus (fun z id => n.idAt z id) (fun z id => n'.idAt z id)) ∧ Outcome ops wr z t n.bus n'.bus cs
  | .none, _, wr, z, t, h, _ => by
    refine ⟨.none, [], by rw [Node.cfg], by rw [CfgNode]; trivial, (fun c hc => nomatch hc), fun hn => absurd (by rw [Node.bus]; rfl) hn, ⟨Node.same_refl _, Kept.rfl⟩, ?_, ?_⟩
    · rw [Node.bus]; rfl
    · rw [Node.bus]; exact .inl rfl
  | .dev bus fns, hn, wr, z, t, h, _ => by
    rw [CfgNode] at hn
    exact dev_cfg ops bus fns hn h
  | .sw up ports, hn, wr, z, t, h, hz => by
    rw [CfgNode] at hn
    by_cases hk : z = true ∧ up.id.device = t.completer_id.device ∧ up.id.function = t.completer_id.function
    · obtain ⟨rfl, hk'⟩ := hk
      obtain ⟨s1, s2, s3, s4, s5, s6, s7, s8⟩ := brServe (ops := ops) h hn.1.handlers hk'
      refine ⟨.sw (up.serve ops t).1 ports, (up.serve ops t).2, ?_, ?_, s7, fun _ => by
        rw [Node.idAt, if_pos ⟨rfl, by rw [s4, s5]; exact hk'⟩, s6],
        ⟨by rw [Node.same]; exact ⟨_, _, rfl, ⟨s4, s5, s2, s3⟩, Ports.same_refl _⟩, fun id z' hne hz hz0 hst hi => ?_⟩, ?_, ?_⟩
      rotate_left 2
      · have hnt := takes_ne hk' hne hz
        have hnt' : ¬ takes z' (up.serve ops t).1.id id := by rw [s6]; exact takes_ne ⟨rfl, rfl⟩ hne hz
        simp only [Node.idAt, if_neg hnt] at hi
        simp only [Node.idAt, if_neg hnt']
        split at hi
        · rename_i hb
          have hst := hst (hz0 hb.1) false up.toBr (by rw [Node.bus, first, if_pos ⟨rfl, hk'⟩])
          rw [setFmt_self h, ← s1] at hst
          rw [hst.1]
          rw [if_pos hb, decide_eq_decide.2 (hst.2 hb.2)]; exact hi
        · cases hi
      rotate_right 2
      · rw [Node.cfg, upstreamRecv_own h hn.1.handlers hk']
        simp only
        rw [flatMap_self fun c hc => sentUp_upstreamSend (s7 c hc) _]
      · rw [CfgNode]; exact ⟨cfgBridge_serve h hn.1 hk', hn.2⟩
      · rw [Node.bus, Node.bus, upd, if_pos ⟨rfl, hk'⟩, setFmt_self h, s1, s4, s5]
      · rw [Node.bus, first, if_pos ⟨rfl, hk'⟩, setFmt_self h]
        exact s8 false
    · by_cases hb : z = false ∧ behind up.toBr t.completer_id = true
      · obtain ⟨rfl, hb'⟩ := hb
        have hne := behind_taken (hz rfl) hn.1 hb'
        obtain ⟨c1, c2, c3, c4⟩ := convert_cfg h up
        have hrun : ∃ ports' cs, (Node.sw up ports).cfg ops t = .ok (.sw up ports', cs) ∧ CfgPorts ports' ∧ (∀ c ∈ cs, CfgCpl c) ∧
            (ports.bus.first (decide (t.completer_id.bus = up.secBus)) t.completer_id ≠ none →
              ports'.idAt (decide (t.completer_id.bus = up.secBus)) t.completer_id = some t.completer_id) ∧
            (ports.same ports' ∧ Kept ops wr (decide (t.completer_id.bus = up.secBus)) (up.convert t) ports.bus (fun z id => ports.idAt z id) (fun z id => ports'.idAt z id)) ∧
            Outcome ops wr (decide (t.completer_id.bus = up.secBus)) (up.convert t) ports.bus ports'.bus cs := by
          rw [Node.cfg, upstreamRecv_down h hb']
          simp only [route_cfg c1]
          cases hp : ports.pick (decide (t.completer_id.bus = up.secBus)) (up.convert t).completer_id with
          | none =>
            have hf := pick_none hp
            refine ⟨ports, [(up.convert t).createUr up.id], ?_, hn.2, ?_, fun hn => absurd (by rw [c2] at hf; exact hf) hn, ⟨Ports.same_refl _, Kept.rfl⟩, ?_, ?_⟩
            · simp only [List.flatMap_cons, List.flatMap_nil, List.append_nil, sentUp_downstreamRecv (ur_cpl c1 up.id) (.inr hne)]
            · intro c hc; rw [List.mem_singleton] at hc; subst hc; exact ur_cpl c1 _
            · rw [upd_none hf]
            · rw [hf]; exact .inr ⟨_, rfl⟩
          | some k =>
            obtain ⟨ports', cs, i1, i2, i3, ic, ik, i4⟩ := Ports.cfg_spec ops ports hn.2 c1 (fun _ => by rw [c2]; exact hz rfl) hp
            rw [c2] at ic
            refine ⟨ports', cs, ?_, i2, i3, ic, ik, i4⟩
            simp only [Nat.add_sub_cancel, i1]
            rw [flatMap_self fun c hc => swUp_cpl (i3 c hc) (.inr hne) _ _]
        obtain ⟨ports', cs, i1, i2, i3, ic, ⟨is, ik⟩, i4⟩ := hrun
        obtain ⟨o1, o2⟩ := outcome_down h i4
        refine ⟨_, cs, i1, by rw [CfgNode]; exact ⟨hn.1, i2⟩, i3, fun hf => ?_, ⟨by rw [Node.same]; exact ⟨_, _, rfl, ⟨rfl, rfl, rfl, rfl⟩, is⟩, fun id z' hne _ hz0 hst hi => ?_⟩, ?_, ?_⟩
        rotate_left
        · simp only [Node.idAt] at hi ⊢
          split at hi
          · rename_i ht; rw [if_pos ht]; exact hi
          · rename_i ht
            rw [if_neg ht]
            split at hi
            · rename_i hb
              rw [if_pos hb]
              refine ik id _ (by rw [c2]; exact hne) (fun q1 q2 => ?_) (fun _ => hz0 hb.1) (fun h0 dsp f hf => ?_) hi
              · rw [c2, of_decide_eq_true q1, of_decide_eq_true q2]
              · rw [c3]
                refine hst h0 dsp f ?_
                rw [Node.bus, first, if_neg (by simp), if_pos ⟨rfl, hb'⟩]; rw [c2] at hf; exact hf
            · cases hi
        rotate_right
        · rw [Node.bus, first, if_neg (by simp), if_pos ⟨rfl, hb'⟩] at hf
          rw [Node.idAt, if_neg (by simp [takes]), if_pos ⟨rfl, hb'⟩]
          exact ic hf
        · rw [Node.bus, Node.bus, upd, if_neg (by simp), if_pos ⟨rfl, hb'⟩, o1]
        · rw [Node.bus, first, if_neg (by simp), if_pos ⟨rfl, hb'⟩]
          exact o2
      · have hf : (Node.sw up ports).bus.first z t.completer_id = none := by
          rw [Node.bus, first, if_neg hk, if_neg hb]; rfl
        refine ⟨.sw up ports, [t.createUr up.id], ?_, by rw [CfgNode]; exact hn, ?_, fun hn => absurd hf hn, ⟨Node.same_refl _, Kept.rfl⟩, ?_, ?_⟩
        · rw [Node.cfg, upstreamRecv_ur h hk hb]
          rfl
        · intro c hc; rw [List.mem_singleton] at hc; subst hc; exact ur_cpl h _
        · rw [upd_none hf]
        · rw [hf]; exact .inr ⟨_, rfl⟩
@[inherit_doc Node.cfg_spec]
theorem Ports.cfg_spec (ops : CapOps σ) : ∀ (ports : Ports σ), CfgPorts ports → ∀ {wr z : Bool} {t : Tlp}, CfgReq wr z t →
    (z = false → t.completer_id.bus ≠ 0) → ∀ {j : Nat}, ports.pick z t.completer_id = some j →
    ∃ ports' cs, ports.cfg ops j t = .ok (ports', cs) ∧ CfgPorts ports' ∧ (∀ c ∈ cs, CfgCpl c) ∧
      (ports.bus.first z t.completer_id ≠ none → ports'.idAt z t.completer_id = some t.completer_id) ∧
      (ports.same ports' ∧ Kept ops wr z t ports.bus (fun z id => ports.idAt z id) (fun z id => ports'.idAt z id)) ∧ Outcome ops wr z t ports.bus ports'.bus cs
  | .nil, _, wr, z, t, _, _, j, hp => by rw [Ports.pick] at hp; cases hp
  | .cons b n rest, hn, wr, z, t, h, hz, j, hp => by
    rw [CfgPorts] at hn
    obtain ⟨hb0, hn1, hn2⟩ := hn
    rw [Ports.pick] at hp
    by_cases hk : z = true ∧ b.id.device = t.completer_id.device ∧ b.id.function = t.completer_id.function
    · obtain ⟨rfl, hk'⟩ := hk
      rw [if_pos (.inl ⟨rfl, hk'⟩)] at hp
      cases hp
      obtain ⟨s1, s2, s3, s4, s5, s6, s7, s8⟩ := brServe (ops := ops) h hb0.handlers hk'
      refine ⟨.cons (b.serve ops t).1 n rest, (b.serve ops t).2, ?_, ?_, s7, fun _ => by
        rw [Ports.idAt, if_pos ⟨rfl, by rw [s4, s5]; exact hk'⟩, s6],
        ⟨by rw [Ports.same]; exact ⟨_, _, _, rfl, ⟨s4, s5, s2, s3⟩, Node.same_refl _, Ports.same_refl _⟩, fun id z' hne hz hz0 hst hi => ?_⟩, ?_, ?_⟩
      rotate_left 2
      · have hnt := takes_ne hk' hne hz
        have hnt' : ¬ takes z' (b.serve ops t).1.id id := by rw [s6]; exact takes_ne ⟨rfl, rfl⟩ hne hz
        simp only [Ports.idAt, if_neg hnt] at hi
        simp only [Ports.idAt, if_neg hnt']
        have hst : z' = false → Stable id b.toBr (b.serve ops t).1.toBr := by
          intro hf
          have hst := hst (hz0 hf) true b.toBr (by rw [Ports.bus, first, if_pos ⟨rfl, hk'⟩])
          rw [setFmt_self h, ← s1] at hst
          exact hst
        split at hi
        · rename_i hb
          have hst := hst hb.1
          rw [hst.1, if_pos hb, decide_eq_decide.2 (hst.2 hb.2)]; exact hi
        · rename_i hb
          rw [if_neg (fun hb' => hb ⟨hb'.1, by rw [← (hst hb'.1).1]; exact hb'.2⟩)]; exact hi
      rotate_right 2
      · rw [Ports.cfg, upstreamRecv_own h hb0.handlers hk']
        simp only
        rw [flatMap_self fun c hc => sentUp_upstreamSend (s7 c hc) _]
      · rw [CfgPorts]; exact ⟨cfgBridge_serve h hb0 hk', hn1, hn2⟩
      · rw [Ports.bus, Ports.bus, upd, if_pos ⟨rfl, hk'⟩, setFmt_self h, s1, s4, s5]
      · rw [Ports.bus, first, if_pos ⟨rfl, hk'⟩, setFmt_self h]
        exact s8 true
    · by_cases hb : z = false ∧ behind b.toBr t.completer_id = true
      · rw [if_pos (.inr hb)] at hp
        cases hp
        obtain ⟨rfl, hb'⟩ := hb
        have hne := behind_taken (hz rfl) hb0 hb'
        obtain ⟨c1, c2, c3, c4⟩ := convert_cfg h b
        obtain ⟨n', cs, i1, i2, i3, ic, ⟨is, ik⟩, i4⟩ := Node.cfg_spec ops n hn1 c1 (fun _ => by rw [c2]; exact hz rfl)
        rw [c2] at ic
        obtain ⟨o1, o2⟩ := outcome_down h i4
        refine ⟨.cons b n' rest, cs, ?_, by rw [CfgPorts]; exact ⟨hb0, i2, hn2⟩, i3, fun hf => by
          rw [Ports.bus, first, if_neg (by simp), if_pos ⟨rfl, hb'⟩] at hf
          rw [Ports.idAt, if_neg (by simp [takes]), if_pos ⟨rfl, hb'⟩]
          exact ic hf, ⟨by rw [Ports.same]; exact ⟨_, _, _, rfl, ⟨rfl, rfl, rfl, rfl⟩, is, Ports.same_refl _⟩, fun id z' hne _ hz0 hst hi => ?_⟩, ?_, ?_⟩
        rotate_left
        · simp only [Ports.idAt] at hi ⊢
          split at hi
          · rename_i ht; rw [if_pos ht]; exact hi
          · rename_i ht
            rw [if_neg ht]
            split at hi
            · rename_i hb
              rw [if_pos hb]
              refine ik id _ (by rw [c2]; exact hne) (fun q1 q2 => ?_) (fun _ => hz0 hb.1) (fun h0 dsp f hf => ?_) hi
              · rw [c2, of_decide_eq_true q1, of_decide_eq_true q2]
              · rw [c3]
                refine hst h0 dsp f ?_
                rw [Ports.bus, first, if_neg (by simp), if_pos ⟨rfl, hb'⟩]; rw [c2] at hf; exact hf
            · rename_i hb; rw [if_neg hb]; exact hi
        rotate_right
        · rw [Ports.cfg, upstreamRecv_down h hb']
          simp only [copy_eq c1.th, i1]
          rw [flatMap_self fun c hc => by rw [copy_eq (i3 c hc).th]; exact sentUp_downstreamRecv (i3 c hc) (.inr hne)]
        · rw [Ports.bus, Ports.bus, upd, if_neg (by simp), if_pos ⟨rfl, hb'⟩, o1]
        · rw [Ports.bus, first, if_neg (by simp), if_pos ⟨rfl, hb'⟩]
          exact o2
      · rw [if_neg (by rintro (hh | hh); exacts [hk hh, hb hh]), Option.map_eq_some_iff] at hp
        obtain ⟨k, hp, rfl⟩ := hp
        obtain ⟨rest', cs, i1, i2, i3, ic, ⟨is, ik⟩, o1, o2⟩ := Ports.cfg_spec ops rest hn2 h hz hp
        refine ⟨.cons b n rest', cs, ?_, by rw [CfgPorts]; exact ⟨hb0, hn1, i2⟩, i3, fun hf => by
          rw [Ports.bus, first, if_neg hk, if_neg hb] at hf
          rw [Ports.idAt, if_neg (show ¬ takes z b.id t.completer_id from hk), if_neg hb]
          exact ic hf, ⟨by rw [Ports.same]; exact ⟨_, _, _, rfl, ⟨rfl, rfl, rfl, rfl⟩, Node.same_refl _, is⟩, fun id z' hne hz' hz0 hst hi => ?_⟩, ?_, ?_⟩
        rotate_left
        · simp only [Ports.idAt] at hi ⊢
          split at hi
          · rename_i ht; rw [if_pos ht]; exact hi
          · rename_i ht
            rw [if_neg ht]
            split at hi
            · rename_i hb; rw [if_pos hb]; exact hi
            · rename_i hb'
              rw [if_neg hb']
              exact ik id z' hne hz' hz0 (fun h0 dsp f hf => hst h0 dsp f (by rw [Ports.bus, first, if_neg hk, if_neg hb]; exact hf)) hi
        rotate_right
        · rw [Ports.cfg, i1]
        · rw [Ports.bus, Ports.bus, upd, if_neg hk, if_neg hb, o1]
        · rw [Ports.bus, first, if_neg hk, if_neg hb]
          exact o2
end

end Pcie
