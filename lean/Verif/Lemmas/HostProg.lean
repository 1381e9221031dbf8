/- Programs of the host, run on the hierarchy: rules for the accesses, and programs that access one function only. -/
import Verif.Model.HostProg
import Verif.Lemmas.CfgFabricNum
namespace Pcie
open Spec Phys
variable {σ : Type}

theorem CfgProg.run_bind {α β : Type} (ops : CapOps σ) (tag : Tlp → Nat) (p : CfgProg α) (f : α → CfgProg β) (n : Node σ) :
    (p.bind f).run ops tag n = match p.run ops tag n with | .error e => .error e | .ok (n', a) => (f a).run ops tag n' := by
  induction p generalizing n with
  | ret a => rfl
  | raise e => rfl
  | rd id addr len k ih =>
    simp only [CfgProg.bind, CfgProg.run]
    cases Cfg.read (Node.cfgOp ops tag) n id addr len with
    | error e => rfl
    | ok r => exact ih _ _
  | wr id addr data k ih => exact ih _
  | dsp id k ih => exact ih _ _

section
variable (ops : CapOps σ) (tag : Tlp → Nat) (host : BrFn σ)

/-- The program, started in any hierarchy with the registers in `b`, returns `a` and leaves the registers in `b'`; functions
that know their number (those in `S`) still do afterwards (those in `S'`). -/
def Tr {α : Type} (p : CfgProg α) (b : Phys σ) (S : PcieId → Prop) (a : α) (b' : Phys σ) (S' : PcieId → Prop) : Prop :=
  ∀ ports : Ports σ, CfgPorts ports → ports.bus = b → (∀ id, S id → Right ports id) →
    ∃ ports', p.run ops tag (.sw host ports) = .ok (.sw host ports', a) ∧ CfgPorts ports' ∧ ports.same ports' ∧ ports'.bus = b' ∧
      ∀ id, S' id → Right ports' id

variable {ops tag host}

theorem Tr.ret {α : Type} {a : α} {b : Phys σ} {S : PcieId → Prop} : Tr ops tag host (.ret a) b S a b S :=
  fun ports hp hb hS => ⟨ports, rfl, hp, Ports.same_refl _, hb, hS⟩

theorem Tr.pure {α : Type} {a : α} {b : Phys σ} {S : PcieId → Prop} : Tr ops tag host (Pure.pure a : CfgProg α) b S a b S := Tr.ret

theorem Tr.bind {α β : Type} {p : CfgProg α} {f : α → CfgProg β} {b b1 b2 : Phys σ} {S S1 S2 : PcieId → Prop} {a : α} {c : β}
    (h1 : Tr ops tag host p b S a b1 S1) (h2 : Tr ops tag host (f a) b1 S1 c b2 S2) : Tr ops tag host (p >>= f) b S c b2 S2 := by
  intro ports hp hb hS
  obtain ⟨p1, r1, c1, s1, e1, t1⟩ := h1 ports hp hb hS
  obtain ⟨p2, r2, c2, s2, e2, t2⟩ := h2 p1 c1 e1 t1
  refine ⟨p2, ?_, c2, Ports.same_trans _ s1 s2, e2, t2⟩
  show (p.bind f).run ops tag _ = _
  rw [CfgProg.run_bind, r1]
  exact r2

theorem Tr.mono {α : Type} {p : CfgProg α} {b b' : Phys σ} {S S' T T' : PcieId → Prop} {a : α} (h : Tr ops tag host p b S a b' S')
    (h1 : ∀ id, S id → T id) (h2 : ∀ id, T' id → S' id) : Tr ops tag host p b T a b' T' := by
  intro ports hp hb hT
  obtain ⟨p1, r1, c1, s1, e1, t1⟩ := h ports hp hb fun id hi => hT id (h1 id hi)
  exact ⟨p1, r1, c1, s1, e1, fun id hi => t1 id (h2 id hi)⟩

theorem Tr.dsp (id : PcieId) {b : Phys σ} {S : PcieId → Prop} : Tr ops tag host (.dsp id .ret) b S (cfgDsp b id) b S := by
  intro ports hp hb hS
  refine ⟨ports, ?_, hp, Ports.same_refl _, hb, hS⟩
  subst hb
  rfl

/-- A read access to a function. -/
theorem Tr.rd (hh : CfgHost host) {id : PcieId} (hi : CfgId id) {b : Phys σ} {x : Fn σ} (hx : b.first (id.bus = 0) id = some x) {addr len : Nat}
    (hl : 0 < len) (hreg : ∀ a, addr ≤ a → a < addr + len → x.read ops (a / 4) < 2 ^ 32) {S : PcieId → Prop} :
    Tr ops tag host (.rd id addr len .ret) b S (Mem.read (cfgBytes (fnOps ops) x) addr len) b (fun id' => S id' ∨ id' = id) := by
  intro ports hp hb hS
  subst hb
  obtain ⟨p1, r1, r2, r3⟩ := node_read ops tag hh hp hi hx addr len hreg
  refine ⟨p1, ?_, r2.cfg, r2.same, r3, ?_⟩
  · rw [CfgProg.run, r1]; rfl
  · rintro id' (h | rfl)
    · exact r2.right id' (hS id' h)
    · exact node_read_taken ops tag hh hp hi hl (by rw [hx]; simp) r1

/-- A read access to a function that does not exist. -/
theorem Tr.rdNone (hh : CfgHost host) {id : PcieId} (hi : CfgId id) {b : Phys σ} (hx : b.first (id.bus = 0) id = none) (addr len : Nat)
    {S : PcieId → Prop} : Tr ops tag host (.rd id addr len .ret) b S (List.replicate len 0xff) b S := by
  intro ports hp hb hS
  subst hb
  obtain ⟨p1, r1, r2, r3⟩ := node_read_none ops tag hh hp hi hx addr len
  refine ⟨p1, ?_, r2.cfg, r2.same, r3, fun id' h => r2.right id' (hS id' h)⟩
  rw [CfgProg.run, r1]; rfl

theorem writeReqs_one (id : PcieId) (addr : Nat) {d : List UInt8} (h0 : 0 < d.length) (h1 : addr % 4 + d.length ≤ 4) :
    Cfg.writeReqs id d 0 addr = [Cfg.writeTlp id addr d] := by
  rw [Cfg.writeReqs]
  have e : IoRegion.len addr (d.length - 0) = d.length := by unfold IoRegion.len; omega
  rw [dif_pos (by omega)]
  simp only [e]
  rw [Cfg.writeReqs, dif_neg (by omega)]
  have : slice d 0 (0 + d.length) = d := by unfold slice; simp
  rw [this]

variable (ops tag) in
/-- The registers of the function with number `id` after a write access. -/
def wrote (id : PcieId) (x : Fn σ) (addr : Nat) (d : List UInt8) : Fn σ := (Cfg.Fn.op (fnOps ops) tag ⟨id, x⟩ (Cfg.writeTlp id addr d)).1.regs

/-- The two functions are of the same kind. -/
def Fn.kind : Fn σ → Option Bool
  | .ep _ => none
  | .br dsp _ => some dsp

/-- The bus numbers. -/
def Fn.range : Fn σ → Nat × Nat × Nat
  | .ep _ => (0, 0, 0)
  | .br _ f => (f.secBus, f.subBus, f.priBus)

/-- A write access, in one request, to a function. -/
theorem Tr.wr (hh : CfgHost host) {id : PcieId} (hi : CfgId id) {b : Phys σ} {x : Fn σ} (hx : b.first (id.bus = 0) id = some x) {addr : Nat}
    {d : List UInt8} (h0 : 0 < d.length) (h1 : addr % 4 + d.length ≤ 4) {S : PcieId → Prop}
    (hS : ∀ id', S id' → id' ≠ id → id'.bus ≠ 0 → ∀ dsp f f', x = .br dsp f → wrote ops tag id x addr d = .br dsp f' → Stable id' f f') :
    Tr ops tag host (.wr id addr d (.ret ())) b S () (replaceAt (wrote ops tag id x addr d) b (id.bus = 0) id) S ∧
      (wrote ops tag id x addr d).kind = x.kind := by
  have hone := writeReqs_one id addr h0 h1
  have hw : ∀ ports : Ports σ, CfgPorts ports → ports.bus = b → ∃ ports' ge gb, (Node.cfgOp ops tag (.sw host ports) (Cfg.writeTlp id addr d)).1 = .sw host ports' ∧ CfgPorts ports' ∧
      (ports.bus.first (decide (id.bus = 0)) id ≠ none → Right ports' id) ∧
      ports.same ports' ∧ (∀ id', id' ≠ id → (id'.bus ≠ 0 → ∀ dsp f, ports.bus.first (id.bus = 0) id = some (.br dsp f) → Stable id' f (gb f)) →
        Right ports id' → Right ports' id') ∧
      ports'.bus = ports.bus.upd ge gb (id.bus = 0) id ∧ wrote ops tag id x addr d = x.mapRegs ge gb := by
    intro ports hp hb
    obtain ⟨ports', ge, gb, w1, w2, w3, w4, w5, w6, w7⟩ := cfgOp_write ops tag hh hp hi (writeTlp_req hi addr d h0 h1)
    exact ⟨ports', ge, gb, w1, w2, w3, w4, w5, w6, by unfold wrote; rw [w7]⟩
  refine ⟨?_, ?_⟩
  · intro ports hp hb hR
    obtain ⟨ports', ge, gb, w1, w2, w3, w4, w5, w6, w7⟩ := hw ports hp hb
    subst hb
    refine ⟨ports', ?_, w2, w4, ?_, ?_⟩
    · rw [CfgProg.run]
      unfold Cfg.write
      rw [hone, List.foldl_cons, List.foldl_nil, w1]
      rfl
    · rw [w6, upd_replaceAt hx, w7]
    · intro id' hs
      by_cases he : id' = id
      · subst he; exact w3 (by rw [hx]; simp)
      · refine w5 id' he (fun hz dsp f hf => ?_) (hR id' hs)
        rw [hx] at hf
        cases hf
        exact hS id' hs he hz dsp f (gb f) rfl (by rw [w7]; rfl)
  · unfold wrote
    have hc0 : (Cfg.toType0 (tag (Cfg.writeTlp id addr d)) (Cfg.writeTlp id addr d)).completer_id = id := by
      rw [toType0_cfg (writeTlp_req hi addr d h0 h1)]; exact (writeTlp_req hi addr d h0 h1).to_
    rw [fnOp_serve _ _ hc0.symm]
    have := serve_map ops (Cfg.toType0 (tag (Cfg.writeTlp id addr d)) (Cfg.writeTlp id addr d)) x
    rw [hc0] at this
    rw [this]
    cases x <;> rfl

/-! ### Programs that access one function -/

variable (ops tag) in
/-- The program, with the registers of function `id` only; programs that access other functions, bus number registers, or
several registers at once are not covered. -/
def CfgProg.onFn {α : Type} (id : PcieId) : CfgProg α → Fn σ → Py (Fn σ × α)
  | .ret a, x => .ok (x, a)
  | .raise e, _ => .error e
  | .rd id' addr len k, x =>
    if id' = id ∧ 0 < len ∧ addr % 4 + len ≤ 4 ∧ x.read ops (addr / 4) < 2 ^ 32 then (k (Mem.read (cfgBytes (fnOps ops) x) addr len)).onFn id x
    else .error "no"
  | .wr id' addr d k, x =>
    if id' = id ∧ 0 < d.length ∧ addr % 4 + d.length ≤ 4 ∧ (wrote ops tag id x addr d).range = x.range then k.onFn id (wrote ops tag id x addr d)
    else .error "no"
  | .dsp _ _, _ => .error "no"

theorem CfgProg.onFn_bind {α β : Type} (id : PcieId) (p : CfgProg α) (f : α → CfgProg β) (x : Fn σ) :
    (p >>= f).onFn ops tag id x = match p.onFn ops tag id x with | .error e => .error e | .ok (x', a) => (f a).onFn ops tag id x' := by
  show (p.bind f).onFn ops tag id x = _
  induction p generalizing x with
  | ret a => rfl
  | raise e => rfl
  | rd id' addr len k ih =>
    simp only [CfgProg.bind, CfgProg.onFn]
    split
    · exact ih _ _
    · rfl
  | wr id' addr data k ih =>
    simp only [CfgProg.bind, CfgProg.onFn]
    split
    · exact ih _
    · rfl
  | dsp id k ih => rfl

theorem first_replaceAt {b : Phys σ} {z : Bool} {id : PcieId} {x x' : Fn σ} (h : b.first z id = some x) (hk : x'.kind = x.kind) :
    (replaceAt x' b z id).first z id = some x' := by
  induction b generalizing z with
  | nil => cases h
  | ep d fn f rest ih =>
    rw [first] at h
    rw [replaceAt]
    split
    · rename_i hc; rw [if_pos hc] at h; cases h
      rw [first, if_pos hc]
      cases x' with
      | ep f' => rfl
      | br dsp f' => cases hk
    · rename_i hc; rw [if_neg hc] at h; rw [first, if_neg hc, ih h]
  | br d fn dsp f child rest ihc ih =>
    rw [first] at h
    rw [replaceAt]
    split
    · rename_i hc; rw [if_pos hc] at h; cases h
      rw [first, if_pos hc]
      cases x' with
      | ep f' => cases hk
      | br dsp f' => cases hk; rfl
    · rename_i hc; rw [if_neg hc] at h
      split
      · rename_i hc'; rw [if_pos hc'] at h; rw [first, if_neg hc, if_pos hc', ihc h]
      · rename_i hc'; rw [if_neg hc'] at h; rw [first, if_neg hc, if_neg hc', ih h]

theorem replaceAt_self {b : Phys σ} {z : Bool} {id : PcieId} {x : Fn σ} (h : b.first z id = some x) : replaceAt x b z id = b := by
  induction b generalizing z with
  | nil => cases h
  | ep d fn f rest ih =>
    rw [first] at h
    rw [replaceAt]
    split
    · rename_i hc; rw [if_pos hc] at h; cases h; rfl
    · rename_i hc; rw [if_neg hc] at h; rw [ih h]
  | br d fn dsp f child rest ihc ih =>
    rw [first] at h
    rw [replaceAt]
    split
    · rename_i hc; rw [if_pos hc] at h; cases h; rfl
    · rename_i hc; rw [if_neg hc] at h
      split
      · rename_i hc'; rw [if_pos hc'] at h; rw [ihc h]
      · rename_i hc'; rw [if_neg hc'] at h; rw [ih h]

theorem replaceAt_twice {b : Phys σ} {z : Bool} {id : PcieId} {x x' y : Fn σ} (h : b.first z id = some x) (hk : y.kind = x.kind) :
    replaceAt y (replaceAt x' b z id) z id = replaceAt y b z id := by
  induction b generalizing z with
  | nil => cases h
  | ep d fn f rest ih =>
    rw [first] at h
    rw [replaceAt, replaceAt]
    split
    · rename_i hc; rw [if_pos hc] at h; cases h
      rw [replaceAt, if_pos hc]
      cases y with
      | ep f' => rfl
      | br dsp f' => cases hk
    · rename_i hc; rw [if_neg hc] at h; rw [replaceAt, if_neg hc, ih h]
  | br d fn dsp f child rest ihc ih =>
    rw [first] at h
    rw [replaceAt, replaceAt]
    split
    · rename_i hc; rw [if_pos hc] at h; cases h
      rw [replaceAt, if_pos hc]
      cases y with
      | ep f' => cases hk
      | br dsp f' => cases hk; rfl
    · rename_i hc; rw [if_neg hc] at h
      split
      · rename_i hc'; rw [if_pos hc'] at h; rw [replaceAt, if_neg hc, if_pos hc', ihc h]
      · rename_i hc'; rw [if_neg hc'] at h; rw [replaceAt, if_neg hc, if_neg hc', ih h]

/-- A program that accesses one function only, on the hierarchy. -/
theorem Tr.onFn (hh : CfgHost host) {id : PcieId} (hi : CfgId id) {α : Type} {p : CfgProg α} {b : Phys σ} {x x' : Fn σ} {a : α}
    (hx : b.first (id.bus = 0) id = some x) (h : p.onFn ops tag id x = .ok (x', a)) {S : PcieId → Prop} :
    Tr ops tag host p b S a (replaceAt x' b (id.bus = 0) id) S ∧ x'.kind = x.kind ∧ x'.range = x.range := by
  induction p generalizing b x with
  | ret c => rw [CfgProg.onFn] at h; cases h; rw [replaceAt_self hx]; exact ⟨Tr.ret, rfl, rfl⟩
  | raise e => cases h
  | rd id' addr len k ih =>
    rw [CfgProg.onFn] at h
    split at h
    · rename_i hc
      obtain ⟨rfl, c1, c2, c3⟩ := hc
      obtain ⟨t, e1, e2⟩ := ih _ hx h
      refine ⟨?_, e1, e2⟩
      exact Tr.bind (p := .rd id' addr len .ret) (f := k) ((Tr.rd hh hi hx c1 (fun a h1 h2 => by
        rw [show a / 4 = addr / 4 by omega]; exact c3)).mono (fun _ h => h) (fun _ h => .inl h)) t
    · cases h
  | wr id' addr d k ih =>
    rw [CfgProg.onFn] at h
    split at h
    · rename_i hc
      obtain ⟨rfl, c1, c2, c3⟩ := hc
      obtain ⟨t1, e1⟩ := Tr.wr hh hi hx c1 c2 (S := S) (ops := ops) (tag := tag) (fun id' _ _ _ dsp f f' q1 q2 => by
        rw [q2, q1] at c3
        simp only [Fn.range, Prod.mk.injEq] at c3
        refine ⟨?_, fun _ => by rw [c3.1]⟩
        unfold behind
        rw [c3.1, c3.2.1])
      obtain ⟨t, e2, e3⟩ := ih (first_replaceAt hx e1) h
      rw [replaceAt_twice hx (by rw [e2, e1])] at t
      exact ⟨Tr.bind (p := .wr id' addr d (.ret ())) (f := fun _ => k) t1 t, by rw [e2, e1], by rw [e3, c3]⟩
    · cases h
  | dsp id k ih => cases h

end

end Pcie
