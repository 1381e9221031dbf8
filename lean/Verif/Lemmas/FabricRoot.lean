import Verif.Lemmas.FabricEnum
/-
Lemmas: the hierarchy after enumeration.
-/
namespace Pcie
open Spec
variable {σ : Type}

theorem setupFns_bus (m : Nat) : ∀ (fns : List (EpFn σ)) (t : Phys σ),
    Skel (fns.foldr (fun f rest => Phys.ep f.id.device f.id.function f.toEp rest) .nil) t →
    (setupFns m fns t).foldr (fun f rest => Phys.ep f.id.device f.id.function f.toEp rest) .nil = t ∧
    (∀ f ∈ setupFns m fns t, f.id.bus = m) ∧
    (setupFns m fns t).map (fun f => (f.id.device, f.id.function)) = fns.map (fun f => (f.id.device, f.id.function))
  | [], t, h => by cases h; exact ⟨rfl, by simp [setupFns], rfl⟩
  | f :: fns, t, h => by
    rw [List.foldr_cons] at h
    cases h with
    | @ep _ _ _ g _ rest' h =>
      obtain ⟨i1, i2, i3⟩ := setupFns_bus m fns rest' h
      refine ⟨?_, ?_, ?_⟩
      · rw [setupFns, List.foldr_cons, i1]
      · intro x hx
        rw [setupFns] at hx
        rcases List.mem_cons.1 hx with rfl | hx
        · rfl
        · exact i2 x hx
      · rw [setupFns, List.map_cons, i3, List.map_cons]

mutual
theorem Node.setup_bus (m : Nat) : (n : Node σ) → (t : Phys σ) → Skel n.bus t → (n.setup m t).bus = t
  | .none, t, h => by
    rw [Node.bus] at h
    cases h
    rfl
  | .dev _ fns, t, h => by
    rw [Node.bus] at h
    rw [Node.setup, Node.bus]
    exact (setupFns_bus m fns t h).1
  | .sw up ports, t, h => by
    rw [Node.bus] at h
    cases h with
    | br hc hr =>
      cases hr
      rw [Node.setup, Node.bus, Ports.setup_bus _ ports _ hc]
theorem Ports.setup_bus (m : Nat) : (ports : Ports σ) → (t : Phys σ) → Skel ports.bus t → (ports.setup m t).bus = t
  | .nil, t, h => by
    rw [Ports.bus] at h
    cases h
    rfl
  | .cons b n rest, t, h => by
    rw [Ports.bus] at h
    cases h with
    | br hc hr => rw [Ports.setup, Ports.bus, Node.setup_bus _ n _ hc, Ports.setup_bus _ rest _ hr]
end

theorem fns_top (fns : List (EpFn σ)) :
    top (fns.foldr (fun f rest => Phys.ep f.id.device f.id.function f.toEp rest) .nil) =
      fns.map (fun f => (f.id.device, f.id.function, Fn.ep f.toEp)) := by
  induction fns with
  | nil => rfl
  | cons f fns ih => rw [List.foldr_cons, top, ih, List.map_cons]

theorem pairwise_proj {α β γ} {R : γ → γ → Prop} {p : α → γ} {q : β → γ} {l : List α} {l' : List β} (h : l.map p = l'.map q)
    (hp : l.Pairwise fun a b => R (p a) (p b)) : l'.Pairwise fun a b => R (q a) (q b) := by
  have := List.pairwise_map.2 hp
  rw [h] at this
  exact List.pairwise_map.1 this

mutual
theorem Node.setup_ids (m : Nat) : (n : Node σ) → (t : Phys σ) → Skel n.bus t → (∃ root one, BusOk root one (top n.bus)) → BusesOk n.bus →
    (∀ b, BrIn n b → b.root = false) → FabNodeIds m (n.setup m t)
  | .none, _, _, _, _, _ => trivial
  | .dev _ fns, t, h, hb, _, _ => by
    rw [Node.bus] at h hb
    rw [Node.setup, FabNodeIds]
    obtain ⟨-, h2, h3⟩ := setupFns_bus m fns t h
    refine ⟨h2, ?_⟩
    obtain ⟨root, one, hb⟩ := hb
    have hs := hb.sorted
    rw [fns_top] at hs
    have := pairwise_proj (R := fun a b : Nat × Nat => a.1 < b.1 ∨ a.1 = b.1 ∧ a.2 < b.2) h3.symm (List.pairwise_map.1 hs)
    refine this.imp ?_
    intro f g hfg e
    rw [e] at hfg
    omega
  | .sw up ports, t, h, _, hb, hr => by
    rw [Node.bus] at h hb
    cases h with
    | br hc hrest =>
      rw [Node.setup, FabNodeIds]
      refine ⟨rfl, hr up .up, ?_⟩
      exact Ports.setup_ids _ ports _ hc hb.2.1 fun x hx => ⟨hr _ (.port hx), fun b hb' => hr b (.deeper hx hb')⟩
theorem Ports.setup_ids (m : Nat) : (ports : Ports σ) → (t : Phys σ) → Skel ports.bus t → BusesOk ports.bus →
    (∀ x ∈ ports.list, x.1.root = false ∧ ∀ b, BrIn x.2 b → b.root = false) → FabPortIds m (ports.setup m t)
  | .nil, _, _, _, _ => trivial
  | .cons b n rest, t, h, hb, hr => by
    rw [Ports.bus] at h hb
    cases h with
    | br hc hrest =>
      rw [Ports.setup, FabPortIds]
      rw [Ports.list] at hr
      have h0 := hr (b, n) (List.mem_cons_self ..)
      refine ⟨rfl, h0.1, Node.setup_ids _ n _ hc ⟨_, _, hb.1⟩ hb.2.1 h0.2, ?_⟩
      exact Ports.setup_ids m rest _ hrest hb.2.2 fun x hx => hr x (List.mem_cons_of_mem _ hx)
end

theorem ports_dev (m : Nat) : ∀ (ports : Ports σ) (t : Phys σ), Skel ports.bus t → (∀ e ∈ top ports.bus, e.1 ≠ 0) →
    ∀ x ∈ (ports.setup m t).list, x.1.id.device ≠ 0
  | .nil, t, _, _ => by simp [Ports.setup, Ports.list]
  | .cons b n rest, t, h, hd => by
    rw [Ports.bus] at h hd
    cases h with
    | br hc hrest =>
      rw [top] at hd
      rw [Ports.setup, Ports.list]
      intro x hx
      rcases List.mem_cons.1 hx with rfl | hx
      · exact hd _ (List.mem_cons_self ..)
      · exact ports_dev m rest _ hrest (fun e he => hd e (List.mem_cons_of_mem _ he)) x hx

/-- What is known about the hierarchy after enumeration. -/
structure Ready (host : BrFn σ) (ports : Ports σ) (l : Limits) (rs : List Region) : Prop where
  map : ∃ own brs all, Mapped False ports.bus.bus own brs all ∧ Sane hostLimits.mem all ∧ (∀ g ∈ brs, Between hostLimits l g) ∧
    Seq hostLimits all l ∧ shape all = shape rs
  nums : Nums 0 ports.bus
  few : bridges ports.bus ≤ 255
  ids : FabPortIds 0 ports
  dev : ∀ x ∈ ports.list, x.1.id.device ≠ 0
  root : host.root = true
  id : host.id = ⟨0, 0, 0⟩
  bus : host.secBus = 0 ∧ host.subBus = 255
  noBars : ∀ r ∈ host.bars, r = {}
  win : host.ioBase = hostLimits.io ∧ host.ioLimit = l.io ∧ host.memBase = hostLimits.mem ∧ host.memLimit = l.mem ∧
    host.prefBase = hostLimits.pref ∧ host.prefLimit = l.pref

theorem enumerateAll_ready {ops : CapOps σ} {fuel : Nat} {host : BrFn σ} {ports : Ports σ} {rs : List Region} {n : Node σ} {l : Limits}
    (hR : AfterReset host ports rs) (hd : depth ports.bus < fuel) (h : enumerateAll ops fuel host ports = .ok (n, l)) (hl : Fits l) :
    ∃ host' ports', n = .sw host' ports' ∧ Ready host' ports' l rs := by
  unfold enumerateAll at h
  cases e : enumerate ops fuel ports.bus with
  | error e' => rw [e] at h; cases h
  | ok p =>
    obtain ⟨t, l'⟩ := p
    rw [e] at h
    simp only [ok_bind, pure, Except.pure, Except.ok.injEq, Prod.mk.injEq] at h
    obtain ⟨rfl, rfl⟩ := h
    obtain ⟨own, brs, all, m1, m2, m3, m4, m5, m6, m7, m8⟩ := enumerate_spec ops hR.bus0 hR.buses hR.fresh hd hR.bars hR.clean hR.small e
      ⟨hl.2.1, by have := hl.2.2; omega⟩
    have hbus := Ports.setup_bus 0 ports t m8
    refine ⟨_, _, rfl, ⟨own, brs, all, by rw [hbus]; exact m1, m2, m3, m4, m5⟩, by rw [hbus]; exact m6, by rw [hbus]; exact m7,
      Ports.setup_ids 0 ports t m8 hR.buses hR.ports, ports_dev 0 ports t m8 (hR.bus0.host rfl), hR.root, hR.id, hR.bus, hR.noBars,
      rfl, rfl, rfl, rfl, rfl, rfl⟩

theorem empty_bars {bars : List BarReg} (h : ∀ r ∈ bars, r = {}) (addr : Nat) (io : Bool) : matchBar bars addr io = .ok none := by
  have key : ∀ (l : List BarReg) (i : Nat), (∀ r ∈ l, r = {}) → matchBarFrom io addr i l = .ok none := by
    intro l
    induction l with
    | nil => intro i _; rfl
    | cons r l ih =>
      intro i hl
      unfold matchBarFrom
      rw [if_pos (by rw [hl r (List.mem_cons_self ..)])]
      exact ih _ fun x hx => hl x (List.mem_cons_of_mem _ hx)
  exact key bars 0 h

theorem empty_good {bars : List BarReg} (h : ∀ r ∈ bars, r = {}) : GoodBars bars := fun addr io => ⟨none, empty_bars h addr io⟩

theorem empty_decodes {bars : List BarReg} (h : ∀ r ∈ bars, r = {}) {addr : Nat} {io : Bool} : ¬ Decodes bars io addr := by
  rintro ⟨hit, e⟩
  rw [empty_bars h] at e
  cases e

theorem sound_cases {tg : Target} (h : Sound tg) :
    (∃ io a, tg = addrTg io a ∧ Plain hostLimits.mem io a) ∨ ∃ i, tg = .cpl i := by
  cases tg with
  | io a => exact .inl ⟨true, a, rfl, .inl h⟩
  | mem a => exact .inl ⟨false, a, rfl, by
      rcases h with h | h
      · exact .inl h
      · exact .inr ⟨rfl, h.1, h.2⟩⟩
  | cpl i => exact .inr ⟨i, rfl⟩
  | cfg0 _ => exact h.elim
  | cfg1 _ => exact h.elim

theorem sound_routed {tg : Target} (h : Sound tg) : Routed tg := by cases tg <;> first | exact h.elim | trivial

section
variable {host : BrFn σ} {ports : Ports σ} {l : Limits} {rs : List Region} (R : Ready host ports l rs)
include R

theorem ready_ports : ∀ x ∈ ports.list, FabNums 0 (bridges ports.bus) x ∧ x.1.id.bus = 0 ∧ x.1.root = false := by
  have := (ports_nums ports R.nums R.ids).1
  simpa using this

theorem ready_root : ∀ x ∈ ports.list, x.1.root = false ∧ ∀ b, BrIn x.2 b → b.root = false := by
  intro x hx
  obtain ⟨p, -, h⟩ := ready_ports R x hx
  exact ⟨h, fun b hb => (brIn_bus hb p.child p.ids).1⟩

theorem ready_claims {io : Bool} {a : Nat} (hp : Plain hostLimits.mem io a) :
    (∀ B ∈ (Node.sw host ports).claims, GoodBars B) ∧ (Node.sw host ports).claims.Pairwise (Excl io a) := by
  obtain ⟨own, brs, all, m1, m2, -⟩ := R.map
  obtain ⟨c0, -, c2⟩ := mapped_claims m1 hp m2
  rw [Ports.barsOf_bus] at c0 c2
  rw [Node.claims]
  refine ⟨?_, List.pairwise_cons.2 ⟨fun B _ h => empty_decodes R.noBars h.1, c2⟩⟩
  intro B hB
  rcases List.mem_cons.1 hB with rfl | hB
  · exact empty_good R.noBars
  · exact c0 B hB

theorem ready_good : ∀ B ∈ (Node.sw host ports).claims, GoodBars B :=
  (ready_claims R (io := false) (a := 0) (.inl (by decide))).1

theorem ready_conf_addr {io : Bool} {a : Nat} (hp : Plain hostLimits.mem io a) : Configured (addrTg io a) (.sw host ports) := by
  obtain ⟨own, brs, all, m1, m2, m3, m4, -⟩ := R.map
  refine conf_sw hp (empty_good R.noBars) m1 m2 ?_ (ready_root R) (Ports.addrOk hp ports)
  intro g hg hf
  obtain ⟨b, e, h1, h2, h3, a1, a2, a3, w⟩ := m3 g hg
  have hl : hostLimits.io = 0x80000000 ∧ hostLimits.mem = 0xc0000000 ∧ hostLimits.pref = 0x8000000000000000 := ⟨rfl, rfl, rfl⟩
  have hle := h1
  unfold Limits.Le at h1 h2 h3
  rw [forwards_iff w (by omega)] at hf
  obtain ⟨w1, w2, w3, w4, w5, w6⟩ := R.win
  unfold Forwards
  rw [w1, w2, w3, w4, w5, w6]
  have r1 := rdown_ge 12 h1.1 (by decide)
  have r2 := rdown_ge 20 h1.2.1 (by decide)
  have r3 := rdown_ge 20 h1.2.2 (by decide)
  cases io
  · simp only [Bool.false_eq_true, if_false, false_and, true_and, false_or] at hf ⊢
    omega
  · simp only [if_true, true_and, Bool.true_eq_false, false_and, or_false] at hf ⊢
    omega

theorem ready_conf {tg : Target} (h : Sound tg) : Configured tg (.sw host ports) := by
  rcases sound_cases h with ⟨io, a, rfl, hp⟩ | ⟨i, rfl⟩
  · exact ready_conf_addr R hp
  · exact conf_sw_cpl (ready_good R) R.nums R.ids (by rw [R.bus.1, R.bus.2]; have := R.few; omega) (Ports.cplOk ports)

theorem ready_fn_bus {path : List Nat} {k : Nat} {f : EpFn σ} (hf : FnAt (.sw host ports) path k f) : 0 < f.id.bus := by
  cases hf with
  | sw hj hf =>
    obtain ⟨p, -⟩ := ready_ports R _ (List.mem_of_getElem? hj)
    have := p.sec
    simp only at this
    rcases fn_bus hf p.child p.ids with ⟨h, -⟩ | h <;> simp only at h <;> omega

theorem ready_br {path : List Nat} {k : Nat} {f : EpFn σ} (hf : FnAt (.sw host ports) path k f) {tg : Target} (h : Sound tg)
    (hfor : EpFn.For f tg) : ∀ b, BrIn (.sw host ports) b → ¬ ForFn b.id b.bars tg := by
  intro b hb hfb
  rcases sound_cases h with ⟨io, a, rfl, hp⟩ | ⟨i, rfl⟩
  · rw [for_addr] at hfor
    rw [forFn_addr] at hfb
    exact fn_br_excl excl_symm hf (ready_claims R hp).2 b hb ⟨hfor, hfb⟩
  · have hfor : i = f.id := hfor
    have hfb : i = b.id := hfb
    have he : b.id = f.id := hfb.symm.trans hfor
    have hpos := ready_fn_bus R hf
    cases hf with
    | sw hj hf =>
      obtain ⟨p, -⟩ := ready_ports R _ (List.mem_of_getElem? hj)
      have key := ports_fn_br R.nums R.ids (Nat.le_refl _) hj hf (fn_br_bus hf p.child p.ids (Nat.le_refl _))
      cases hb with
      | up => rw [R.id] at he; rw [← he] at hpos; exact absurd hpos (by decide)
      | port h => exact (key _ h).1 (by rw [he])
      | deeper h hb => exact (key _ h).2 _ hb (by rw [he])

theorem ready_to_rc {tg : Target} (h : Sound tg) (hr : ForRoot l tg) {path : List Nat} {m : Node σ} (hm : NodeAt (.sw host ports) path m)
    {start : Node σ → Py Fate} {t : Tlp} {ty : TlpType} (hk : Kind t ty tg) (hs : start m = .ok (.exit t)) :
    ∃ t', (Node.sw host ports).rise path start = .ok (.exit t') ∧ Intact t t' := by
  refine rise_root hm (ready_conf R h) hk (sound_routed h) R.root ?_ ?_ hs
  · rcases sound_cases h with ⟨io, a, rfl, hp⟩ | ⟨i, rfl⟩
    · obtain ⟨own, brs, all, m1, m2, m3, m4, -⟩ := R.map
      obtain ⟨-, c1, -⟩ := mapped_claims m1 hp m2
      rw [Ports.barsOf_bus] at c1
      have key : ∀ B ∈ ports.claims, ¬ Decodes B io a := by
        intro B hB hd
        obtain ⟨x, hx, x1, x2, x3⟩ := c1 B hB hd
        have hw := m4.within x hx
        have hl : hostLimits.io = 0x80000000 ∧ hostLimits.mem = 0xc0000000 ∧ hostLimits.pref = 0x8000000000000000 := ⟨rfl, rfl, rfl⟩
        cases io
        · have hr : (a < 0xc0000000 ∨ l.mem < a) ∧ (a < 2 ^ 63 ∨ l.pref < a) := hr
          cases hp : x.pool <;> rw [hp] at hw x1 <;> simp only [lim] at hw <;> simp at x1 <;> omega
        · have hr : a < 0x80000000 ∨ l.io < a := hr
          have := x1.1 rfl
          rw [this] at hw
          simp only [lim] at hw
          omega
      intro x hx
      have := ports_mem ports x hx
      refine ⟨fun b hb => ?_, ?_⟩
      · rw [forFn_addr]; exact key _ (this.2 _ (brIn_claims hb))
      · rw [forFn_addr]; exact key _ this.1
    · have hr : i = ⟨0, 0, 0⟩ := hr
      subst hr
      intro x hx
      obtain ⟨p, p2, -⟩ := ready_ports R x hx
      refine ⟨fun b hb hf => ?_, fun hf => ?_⟩
      · have hf : (⟨0, 0, 0⟩ : PcieId) = b.id := hf
        have h1 := (brIn_bus hb p.child p.ids).2
        have h2 := p.sec
        rw [← hf] at h1
        simp only at h1
        omega
      · have hf : (⟨0, 0, 0⟩ : PcieId) = x.1.id := hf
        exact R.dev x hx (by rw [← hf])
  · obtain ⟨w1, w2, w3, w4, w5, w6⟩ := R.win
    have hl : hostLimits.io = 0x80000000 ∧ hostLimits.mem = 0xc0000000 ∧ hostLimits.pref = 0x8000000000000000 := ⟨rfl, rfl, rfl⟩
    cases tg with
    | io a =>
      right
      have hr : a < 0x80000000 ∨ l.io < a := hr
      rintro ⟨h1, h2⟩
      omega
    | mem a =>
      right
      have hr : (a < 0xc0000000 ∨ l.mem < a) ∧ (a < 2 ^ 63 ∨ l.pref < a) := hr
      rintro (⟨h1, h2⟩ | ⟨h1, h2⟩) <;> omega
    | cpl i =>
      left
      have hr : i = ⟨0, 0, 0⟩ := hr
      subst hr
      exact ⟨R.id.symm, fun x hx h => h.2.2 rfl⟩
    | cfg0 _ => exact h.elim
    | cfg1 _ => exact h.elim

theorem ready_node {path : List Nat} {up : BrFn σ} {ps : Ports σ} (hm : NodeAt (.sw host ports) path (.sw up ps)) :
    GoodBars up.bars ∧ (up.root = true ∨ up.id ≠ ⟨0, 0, 0⟩) := by
  have brIn : ∀ {n : Node σ} {path : List Nat} {m : Node σ}, NodeAt n path m → ∀ up ps, m = .sw up ps → BrIn n up := by
    intro n path m h
    induction h with
    | here => rintro up ps rfl; exact .up
    | sw hj _ ih => intro up ps e; exact .deeper (List.mem_of_getElem? hj) (ih up ps e)
  refine ⟨ready_good R _ (brIn_claims (brIn hm _ _ rfl)), ?_⟩
  cases hm with
  | here => exact .inl R.root
  | sw hj hm =>
    right
    obtain ⟨p, -⟩ := ready_ports R _ (List.mem_of_getElem? hj)
    have h1 := (brIn_bus (brIn hm _ _ rfl) p.child p.ids).2
    have h2 := p.sec
    intro e
    rw [e] at h1
    simp only at h1 h2
    omega

omit R in
theorem ur_kind {cpl t : Tlp} {id : PcieId} (h : IsUr cpl t id) : Kind cpl .CPL (.cpl t.requester_id) := by
  refine ⟨h.kind, by simp only [target, h.requester], ?_⟩
  unfold Tlp.check
  rw [h.kind, h.length, h.data]
  simp

/-- The answer to a request of the root complex gets back to it. -/
theorem ready_answer {t : Tlp} {ty : TlpType} {fate : Fate} (hnp : NonPosted ty = true) (ht : t.requester_id = ⟨0, 0, 0⟩)
    (hf : Refused (.sw host ports) ty t fate) :
    ∃ id c c', answer (.sw host ports) fate = some (.ok (.exit c')) ∧ IsUr c t id ∧ Intact c c' := by
  have hsound : Sound (.cpl t.requester_id) := trivial
  have hroot : ForRoot l (.cpl t.requester_id) := ht
  cases hf with
  | dev hm hd =>
    unfold Dropped at hd
    rw [if_pos hnp] at hd
    obtain ⟨c, hc, rfl⟩ := hd
    obtain ⟨c', e, hi⟩ := ready_to_rc R hsound hroot hm (ur_kind hc) (start := fun _ => .ok (.exit c)) rfl
    exact ⟨_, c, c', by rw [answer, Node.send, e], hc, hi⟩
  | up hm hd =>
    unfold Dropped at hd
    rw [if_pos hnp] at hd
    obtain ⟨c, hc, rfl⟩ := hd
    obtain ⟨c', e, hi⟩ := ready_to_rc R hsound hroot hm (ur_kind hc) (start := fun _ => .ok (.exit c)) rfl
    exact ⟨_, c, c', by rw [answer, Node.send, e], hc, hi⟩
  | @switch path up ps as id hm hd =>
    rw [if_pos hnp] at hd
    obtain ⟨c, hc, rfl⟩ := hd
    have hk := ur_kind hc
    obtain ⟨g1, g2⟩ := ready_node R hm
    obtain ⟨u', e'⟩ := (up.downstreamRecv_spec hk.typ hk.tgt hk.check g1).2.2.1 rfl
      (g2.imp_right fun h e => h (by rw [← ht]; exact e.symm)) (.inr fun h => h.2.2 ht)
    obtain ⟨c', e, hi⟩ := ready_to_rc R hsound hroot hm hk (start := fun
      | .sw up _ =>
        match up.downstreamRecv c with
        | .error e => .error e
        | .ok (_, [.up t']) => .ok (.exit t')
        | .ok (_, es) => .ok (.up [] es)
      | _ => .error "unreachable") (by simp only [e'])
    exact ⟨_, c, c', by rw [answer, Node.answerUp]; exact congrArg some e, hc, hi⟩

end

/-! ### The windows of a function -/

theorem mapped_fns {sib : Prop} (fns : List (EpFn σ)) : ∀ {own all : List Region} {brs : List (Br σ)},
    Mapped sib (fns.foldr (fun f rest => Phys.ep f.id.device f.id.function f.toEp rest) .nil).bus own brs all →
    ∀ f ∈ fns, ∃ ws r, FnRes 6 f.toCommon ws r ∧ (fnRegions f.toCommon ws r).Sublist all := by
  induction fns with
  | nil => intro own all brs _ f hf; cases hf
  | cons g fns ih =>
    intro own all brs h f hf
    rw [List.foldr_cons, Phys.bus] at h
    cases h with
    | ep _ _ ws r _ own brs all h1 h2 h3 =>
      rcases List.mem_cons.1 hf with rfl | hf
      · exact ⟨ws, r, h1, List.sublist_append_left _ _⟩
      · obtain ⟨ws', r', a1, a2⟩ := ih h2 f hf
        exact ⟨ws', r', a1, a2.trans (List.sublist_append_right _ _)⟩

theorem mapped_fn {sib : Prop} {n : Node σ} {path : List Nat} {k : Nat} {f : EpFn σ} (h : FnAt n path k f) :
    ∀ {own all : List Region} {brs : List (Br σ)}, Mapped sib n.bus.bus own brs all →
    ∃ ws r, FnRes 6 f.toCommon ws r ∧ (fnRegions f.toCommon ws r).Sublist all := by
  induction h with
  | dev h =>
    intro own all brs hm
    rw [Node.bus] at hm
    exact mapped_fns _ hm _ (List.mem_of_getElem? h)
  | @sw up ports j b n path k f hj hf ih =>
    intro own all brs hm
    rw [Node.bus, Phys.bus] at hm
    cases hm with
    | br _ _ ws r _ _ cown cbrs call own brs all h1 hc h2 =>
      obtain ⟨-, -, hall⟩ := mapped_ports ports hc
      obtain ⟨o, g, c, m1, m2, -⟩ := hall _ (List.mem_of_getElem? hj)
      obtain ⟨ws', r', a1, a2⟩ := ih m1
      exact ⟨ws', r', a1, (a2.trans m2).trans ((List.sublist_append_left _ _).trans (List.sublist_append_right _ _))⟩

theorem pairwise_mem {α : Type} {R : α → α → Prop} {l : List α} (h : l.Pairwise R) (hs : ∀ x y, R x y → R y x) :
    ∀ {x y : α}, x ∈ l → y ∈ l → x ≠ y → R x y := by
  induction h with
  | nil => intro x y hx; cases hx
  | cons h1 _ ih =>
    intro x y hx hy hne
    rcases List.mem_cons.1 hx with rfl | hx' <;> rcases List.mem_cons.1 hy with rfl | hy'
    · exact absurd rfl hne
    · exact h1 _ hy'
    · exact hs _ _ (h1 _ hx')
    · exact ih hx' hy' hne

/-- The window that decodes an address, if no other window of the function sees it. -/
theorem fnRes_hit {c : Common σ} {cnt : Nat} {ws : List Window} {r : Option (Nat × Nat)} (h : FnRes cnt c ws r)
    (hs : ∀ w ∈ ws, w.k < 32) {w : Window} (hw : w ∈ ws) {a : Nat} (hc : w.contains a = true)
    (ha : a < 2 ^ 32 ∨ w.wide = true ∧ a < 2 ^ 64) (hu : ∀ v ∈ ws, v.io = w.io → Window.sees v a = true → v = w) :
    matchBar c.bars a w.io = .ok (some (w.idx, a - w.base)) := by
  obtain ⟨hit, e⟩ := fnRes_region h hs hw rfl hc ha
  obtain ⟨v, hv, h1, h2, h3, h4⟩ := matchBarFrom_hit _ _ _ _ _ h.lay hs (by omega) e
  have := hu v hv h1 h2
  subst this
  rw [e, h3, h4 hc]

theorem ready_windows {host : BrFn σ} {ports : Ports σ} {l : Limits} {rs : List Region} (R : Ready host ports l rs) (hl : Fits l)
    {path : List Nat} {k : Nat} {f : EpFn σ} (hf : FnAt (.sw host ports) path k f) :
    ∃ ws r, FnRes 6 f.toCommon ws r ∧ ∀ w ∈ ws, ∀ a, w.contains a = true → matchBar f.bars a w.io = .ok (some (w.idx, a - w.base)) ∧
      Sound (if w.io then .io a else .mem a) ∧ ¬ ForRoot l (if w.io then .io a else .mem a) := by
  obtain ⟨own, brs, all, m1, m2, m3, m4, -⟩ := R.map
  have : ∃ ws r, FnRes 6 f.toCommon ws r ∧ (fnRegions f.toCommon ws r).Sublist all := by
    cases hf with
    | sw hj hf =>
      obtain ⟨-, -, hall⟩ := mapped_ports ports m1
      obtain ⟨o, g, c, n1, n2, -⟩ := hall _ (List.mem_of_getElem? hj)
      obtain ⟨ws', r', a1, a2⟩ := mapped_fn hf n1
      exact ⟨ws', r', a1, a2.trans n2⟩
  obtain ⟨ws, r, hres, hsub⟩ := this
  refine ⟨ws, r, hres, ?_⟩
  intro w hw a hc
  have hx : ∀ w ∈ ws, (⟨poolOf f.bars w, w.base, 2 ^ w.k⟩ : Region) ∈ fnRegions f.toCommon ws r :=
    fun w hw => List.mem_append_left _ (List.mem_map.2 ⟨w, hw, rfl⟩)
  have hpw : ws.Pairwise fun v u => ∀ io a, Has ⟨poolOf f.bars v, v.base, 2 ^ v.k⟩ io a → ¬ Has ⟨poolOf f.bars u, u.base, 2 ^ u.k⟩ io a := by
    have := ((m2.sub hsub).apart.sublist (List.sublist_append_left _ _))
    rw [barRegions, List.pairwise_map] at this
    exact this
  have hh : hostLimits.io = 0x80000000 ∧ hostLimits.mem = 0xc0000000 ∧ hostLimits.pref = 0x8000000000000000 := ⟨rfl, rfl, rfl⟩
  obtain ⟨l1, l2, l3⟩ := hl
  have hpos : ∀ v ∈ ws, v.io = true ∧ 0x80000000 ≤ v.base ∧ v.base + 2 ^ v.k ≤ 2 ^ 32 ∧ v.base + 2 ^ v.k ≤ l.io ∧ poolOf f.bars v = .io ∨
      v.io = false ∧ 0xc0000000 ≤ v.base ∧ v.base + 2 ^ v.k ≤ l.mem ∧ poolOf f.bars v = .mem ∨
      v.io = false ∧ v.wide = true ∧ 2 ^ 63 ≤ v.base ∧ v.base + 2 ^ v.k ≤ l.pref ∧ poolOf f.bars v = .pref := by
    intro v hv
    have hwi := m4.within _ (hsub.subset (hx v hv))
    have hp : poolOf f.bars v = if v.io then .io else if v.wide && (f.bars.getD v.idx {}).val.testBit 3 then .pref else .mem := rfl
    cases hio : v.io
    · rw [hio] at hp
      simp only [Bool.false_eq_true, if_false] at hp
      by_cases hpf : (v.wide && (f.bars.getD v.idx {}).val.testBit 3) = true
      · rw [if_pos hpf] at hp
        rw [hp] at hwi
        simp only [lim] at hwi
        rw [Bool.and_eq_true] at hpf
        exact .inr (.inr ⟨rfl, hpf.1, by omega, by omega, hp⟩)
      · rw [if_neg hpf] at hp
        rw [hp] at hwi
        simp only [lim] at hwi
        exact .inr (.inl ⟨rfl, by omega, by omega, hp⟩)
    · rw [hio] at hp
      simp only [if_true] at hp
      rw [hp] at hwi
      simp only [lim] at hwi
      exact .inl ⟨rfl, by omega, by omega, by omega, hp⟩
  have hc' := hc
  simp only [Window.contains, decide_eq_true_eq] at hc'
  have hsz : ∀ w ∈ ws, w.k < 32 := fnRes_small hres fun x hx => m2.size x (hsub.subset hx)
  -- another window that sees the address has it, too
  have huniq : ∀ v ∈ ws, v.io = w.io → Window.sees v a = true → v = w := by
    intro v hv hio hs
    refine Classical.byContradiction fun hne => ?_
    have hcv : v.base ≤ a ∧ a < v.base + 2 ^ v.k := by
      rw [Window.sees, Window.contains, decide_eq_true_eq] at hs
      rcases hpos v hv with h | h | h <;> rcases hpos w hw with h' | h' | h' <;>
        first
        | (exfalso; rw [h.1, h'.1] at hio; cases hio; done)
        | (rw [if_pos h.2.1] at hs; exact hs)
        | (split at hs
           · exact hs
           · omega)
    have hv' : Has ⟨poolOf f.bars v, v.base, 2 ^ v.k⟩ w.io a := by
      refine ⟨?_, hcv⟩
      rcases hpos v hv with h | h | h
      · rw [← hio, h.1]; simp [h.2.2.2.2]
      · rw [← hio, h.1]; simp [h.2.2.2]
      · rw [← hio, h.1]; simp [h.2.2.2.2]
    have hw' : Has ⟨poolOf f.bars w, w.base, 2 ^ w.k⟩ w.io a := by
      refine ⟨?_, hc'⟩
      rcases hpos w hw with h | h | h
      · rw [h.1]; simp [h.2.2.2.2]
      · rw [h.1]; simp [h.2.2.2]
      · rw [h.1]; simp [h.2.2.2.2]
    have := pairwise_mem hpw (fun x y h io a h1 h2 => h io a h2 h1) hv hw hne
    exact this _ _ hv' hw'
  refine ⟨fnRes_hit hres hsz hw hc ?_ huniq, ?_⟩
  · rcases hpos w hw with h | h | h
    · exact .inl (by omega)
    · exact .inl (by omega)
    · exact .inr ⟨h.2.1, by omega⟩
  · rcases hpos w hw with h | h | h
    · rw [h.1]
      refine ⟨show a < 2 ^ 32 by omega, fun h' => ?_⟩
      have h' : a < 0x80000000 ∨ l.io < a := h'
      omega
    · rw [h.1]
      refine ⟨.inl (by omega), fun ⟨h', _⟩ => by omega⟩
    · rw [h.1]
      refine ⟨.inr ⟨by omega, by omega⟩, fun ⟨_, h'⟩ => by omega⟩

/-! ### One function only -/

theorem conf_unique {n : Node σ} {tg : Target} {p : List Nat} {k : Nat} {f : EpFn σ} (h : FnAt n p k f) : ∀ {q : List Nat} {k' : Nat} {g : EpFn σ},
    Configured tg n → FnAt n q k' g → EpFn.For f tg → EpFn.For g tg → p = q ∧ k = k' := by
  induction h with
  | dev h =>
    intro q k' g hc hg hf hg'
    cases hg with
    | dev h' =>
      cases hc with
      | dev _ _ h1 h2 =>
        refine ⟨rfl, Classical.byContradiction fun hne => ?_⟩
        exact pairwise_get (fun _ _ h h' => h h'.symm) h2 h h' hne ⟨hf, hg'⟩
  | @sw up ports j b n path k f hj hf ih =>
    intro q k' g hc hg hfor hfor'
    cases hg with
    | @sw _ _ i bi ni q _ _ hi hg =>
      cases hc with
      | sw _ _ h1 h2 h3 h4 h5 h6 h7 =>
        have s1 := h5 _ (List.mem_of_getElem? hj) path k f hf hfor
        have s2 := h5 _ (List.mem_of_getElem? hi) q k' g hg hfor'
        by_cases hij : j = i
        · subst hij
          rw [hj] at hi
          cases hi
          obtain ⟨e1, e2⟩ := ih (h7 _ (List.mem_of_getElem? hj)) hg hfor hfor'
          exact ⟨by rw [e1], e2⟩
        · exact absurd ⟨s1, s2⟩ (pairwise_get (R := fun x y : BrFn σ × Node σ => ¬ (ForSecondary x.1 tg ∧ ForSecondary y.1 tg))
            (fun _ _ h h' => h h'.symm) h4 hj hi hij)

/-- A TLP for the device it comes from is dropped by the port above the device. -/
theorem rise_same {n : Node σ} {p : List Nat} {k : Nat} {f : EpFn σ} (h : FnAt n p k f) : ∀ {t : Tlp} {ty : TlpType} {tg : Target},
    Configured tg n → Kind t ty tg → Routed tg → (∀ b, BrIn n b → ¬ ForFn b.id b.bars tg) → EpFn.For f tg → p ≠ [] →
    ∃ q j t' es id, p = q ++ [j] ∧ n.send p t = .ok (.port q j es) ∧ Dropped .down ty t' id es ∧ Intact t t' := by
  induction h with
  | dev h => intro t ty tg _ _ _ _ _ hp; exact absurd rfl hp
  | @sw up ports j b n path k f hj hf ih =>
    intro t ty tg hc hk hr hb hfor _
    have hm := List.mem_of_getElem? hj
    cases hc with
    | sw _ _ h1 h2 h3 h4 h5 h6 h7 =>
      by_cases hp : path = []
      · subst hp
        have hk2 := kind_intact hk (intact_copy t)
        obtain ⟨b', es, e, hd⟩ := (b.downstreamRecv_spec hk2.typ hk2.tgt hk2.check (h2 _ hm).1).2.2.2 (not_cfg hk.tgt hr) (h2 _ hm).2
          (hb _ (.port hm)) (h5 _ hm _ _ _ hf hfor)
        refine ⟨[], j, t.copy, es, b.id, rfl, ?_, hd, intact_copy t⟩
        rw [Node.send, Node.rise, hj]
        simp only [Node.rise, e]
        unfold Dropped at hd
        split at hd
        · obtain ⟨cpl, -, rfl⟩ := hd; rfl
        · subst hd; rfl
      · obtain ⟨q, j', t', es, id, e1, e2, e3, e4⟩ := ih (h7 _ hm) hk hr (fun b' hb' => hb b' (.deeper hm hb')) hfor hp
        refine ⟨j :: q, j', t', es, id, by rw [e1]; rfl, ?_, e3, e4⟩
        rw [Node.send] at e2 ⊢
        rw [Node.rise, hj]
        simp only [e2, Fate.under]

/-! ### Configuration requests -/

/-- Configuration requests: reads and writes (`wr`) of type 0 (`z`) and 1. -/
def cfgTy : (wr z : Bool) → TlpType
  | false, true => .CFG_READ_0
  | false, false => .CFG_READ_1
  | true, true => .CFG_WRITE_0
  | true, false => .CFG_WRITE_1

/-- `t` is `t0` on its way. -/
structure CfgOf (wr z : Bool) (t0 t : Tlp) : Prop where
  typ : t.fmtType = some (cfgTy wr z)
  same : t = { t0 with fmt := t.fmt, type := t.type, th := t.th }
  check : t.check = .ok true

theorem cfgOf_copy {wr z : Bool} {t0 t : Tlp} (h : CfgOf wr z t0 t) : CfgOf wr z t0 t.copy := by
  refine ⟨h.typ, ?_, h.check⟩
  obtain ⟨-, hs, -⟩ := h
  unfold Tlp.copy
  rw [hs]

theorem cfg_check {wr z z' : Bool} {t t' : Tlp} (h : t.fmtType = some (cfgTy wr z)) (h' : t'.fmtType = some (cfgTy wr z')) (hc : t.check = .ok true)
    (hl : t'.length = t.length) (hd : t'.data = t.data) : t'.check = .ok true := by
  have v := fmtType_value h
  have v' := fmtType_value h'
  have e : t'.fmt = t.fmt := by
    have a := congrArg Prod.fst v
    have b := congrArg Prod.fst v'
    simp only at a b
    rw [a, b]
    cases wr <;> cases z <;> cases z' <;> rfl
  unfold Tlp.check at hc ⊢
  rw [h] at hc
  rw [h', e, hl, hd]
  cases wr <;> cases z <;> cases z' <;> exact hc

theorem cfgOf_relayed {wr : Bool} {sec : Nat} {t0 t t' : Tlp} (h : CfgOf wr false t0 t) (hr : Relayed sec (cfgTy wr false) t t') :
    CfgOf wr (decide (t0.completer_id.bus = sec)) t0 t' := by
  have hcid : t.completer_id = t0.completer_id := by rw [h.same]
  have hty : (cfgTy wr false = .CFG_READ_1 ∨ cfgTy wr false = .CFG_WRITE_1) := by cases wr <;> simp [cfgTy]
  unfold Relayed at hr
  rw [hcid] at hr
  by_cases hb : t0.completer_id.bus = sec
  · rw [if_pos ⟨hty, hb⟩] at hr
    rw [decide_eq_true hb]
    obtain ⟨r1, r2⟩ := hr
    have r1 : t'.fmtType = some (cfgTy wr true) := by rw [r1]; cases wr <;> rfl
    have e : t' = { t with fmt := t'.fmt, type := t'.type } := by rw [← r2]
    refine ⟨r1, ?_, cfg_check h.typ r1 h.check (by rw [e]) (by rw [e])⟩
    have hth : t'.th = t.th := by rw [e]
    rw [hth, e, h.same]
  · rw [if_neg (fun hh => hb hh.2)] at hr
    rw [decide_eq_false hb, hr]
    exact h

theorem cfgOf_target {wr z : Bool} {t0 t : Tlp} (h : CfgOf wr z t0 t) :
    target t (cfgTy wr z) = some (if z then .cfg0 t0.completer_id else .cfg1 t0.completer_id) := by
  have hcid : t.completer_id = t0.completer_id := by rw [h.same]
  cases wr <;> cases z <;> simp [cfgTy, target, hcid]

/-- A switch hands a type 1 request down to the port in front of the bus. -/
theorem sw_cfg {up : BrFn σ} {ports : Ports σ} (hg : ∀ B ∈ (Node.sw up ports).claims, GoodBars B) {last m : Nat}
    (hn : Nums last ports.bus) (hi : FabPortIds m ports) (hu : up.secBus ≤ last ∧ last + bridges ports.bus ≤ up.subBus)
    {j : Nat} {b : BrFn σ} {n : Node σ} (hj : ports.list[j]? = some (b, n)) {wr : Bool} {t0 t : Tlp} (ht : CfgOf wr false t0 t)
    (hbus : b.secBus ≤ t0.completer_id.bus ∧ t0.completer_id.bus ≤ b.subBus) :
    ∃ t', CfgOf wr (decide (t0.completer_id.bus = b.secBus)) t0 t' ∧
      (Node.sw up ports).recv t = (match n.recv t' with | .error e => .error e | .ok f => .ok (f.under j)) := by
  obtain ⟨p1, p2⟩ := ports_nums ports hn hi
  have hm := List.mem_of_getElem? hj
  obtain ⟨⟨a1, a2, a3, a4, a5⟩, -⟩ := p1 _ hm
  simp only at a1 a2 a3
  rw [Node.claims] at hg
  have hg' := fun B hB => hg B (List.mem_cons_of_mem _ hB)
  have hne : t0.completer_id ≠ ⟨0, 0, 0⟩ := by
    intro e
    rw [e] at hbus
    simp only at hbus
    omega
  have htg : target t (cfgTy wr false) = some (.cfg1 t0.completer_id) := cfgOf_target ht
  obtain ⟨u', t1, e1, r1⟩ := (up.upstreamRecv_spec ht.typ htg ht.check (hg _ (List.mem_cons_self ..))).2.1 (fun h => h)
    (show BusBehind up t0.completer_id from ⟨by omega, by omega, hne⟩)
  have ht1 := cfgOf_relayed ht r1
  rw [decide_eq_false (by omega)] at ht1
  have htg1 : target t1 (cfgTy wr false) = some (.cfg1 t0.completer_id) := cfgOf_target ht1
  obtain ⟨out, e2, ho⟩ := Sw.route_spec (swPorts up ports) 0 (by simp [swPorts]) ht1.typ htg1 (by
    intro p hp
    rcases swPorts_mem hp with e | ⟨b', n', hm', e⟩
    · rw [e]; exact hg _ (List.mem_cons_self ..)
    · rw [e]; exact hg' _ (ports_mem _ _ hm').1)
  have hout : out = .to (j + 1) := by
    cases out with
    | «to» k =>
      obtain ⟨hk0, p, hp, htk, -⟩ := ho
      rcases swPorts_inv hp with ⟨h0, -⟩ | ⟨i, b', n', rfl, hi', rfl⟩
      · exact absurd h0 hk0
      · have hb' : BusBehind b' t0.completer_id := by
          rcases htk with h | h
          · exact h.elim
          · simp only [Bool.false_eq_true, if_false] at h
            exact h
        refine congrArg _ (congrArg (· + 1) (Classical.byContradiction fun hne' => ?_))
        have := pairwise_get (R := fun x y : BrFn σ × Node σ => x.1.subBus < y.1.secBus ∨ y.1.subBus < x.1.secBus)
          (fun _ _ h => h.symm) (p2.imp Or.inl) hi' hj hne'
        obtain ⟨h1, h2, -⟩ := hb'
        simp only at this
        omega
    | drop as =>
      refine absurd ?_ (ho.1 (j + 1) _ (by omega) (swPorts_get hj))
      right
      simp only [Bool.false_eq_true, if_false]
      exact ⟨hbus.1, hbus.2, hne⟩
  subst hout
  obtain ⟨b', t2, e3, r2⟩ := (b.upstreamRecv_spec ht1.typ htg1 ht1.check (hg' _ (ports_mem _ _ hm).1)).2.1 (fun h => h)
    (show BusBehind b t0.completer_id from ⟨hbus.1, hbus.2, hne⟩)
  refine ⟨t2.copy, cfgOf_copy (cfgOf_relayed ht1 r2), ?_⟩
  rw [Node.recv, e1]
  simp only [e2, Nat.add_sub_cancel]
  rw [Ports.recv_eq _ _ _ _ _ _ hj, e3]
  simp only [Nat.zero_add]
  rfl

theorem recv_cfg {n : Node σ} {path : List Nat} {k : Nat} {f : EpFn σ} (hf : FnAt n path k f) : ∀ {last m : Nat} {wr : Bool} {t0 t : Tlp},
    Nums last n.bus → FabNodeIds m n → m ≤ last → (∀ B ∈ n.claims, GoodBars B) → t0.completer_id = f.id →
    CfgOf wr (decide (f.id.bus = m)) t0 t → cfgTy wr true ∈ f.handlers →
    ∃ t', n.recv t = .ok (.fn path k [.release, .handler t']) ∧ CfgOf wr true t0 t' := by
  induction hf with
  | @dev bus fns k f hf =>
    intro last m wr t0 t hn hi hm hg hid ht hh
    rw [FabNodeIds] at hi
    rw [Node.claims] at hg
    have hfb := hi.1 _ (List.mem_of_getElem? hf)
    rw [decide_eq_true hfb] at ht
    have htg : target t (cfgTy wr true) = some (.cfg0 f.id) := by rw [cfgOf_target ht, hid]; rfl
    have huniq : ∀ (k' : Nat) (f' : EpFn σ), fns[k']? = some f' → ForFn f'.id f'.bars (.cfg0 f.id) → k' = k := by
      rintro k' f' hf' ⟨h1, h2⟩
      refine Classical.byContradiction fun hne => ?_
      refine pairwise_get (fun _ _ h => h.symm) hi.2 hf' hf hne ?_
      have hb := hi.1 _ (List.mem_of_getElem? hf')
      cases h : f'.id
      cases h' : f.id
      rw [h, h'] at h1 h2
      rw [h] at hb
      rw [h'] at hfb
      simp only at h1 h2 hb hfb
      rw [h1, h2, hb, hfb]
    have hget : ∀ (k' : Nat) (r : RFn), (fns.map EpFn.rfn)[k']? = some r → ∃ f' : EpFn σ, fns[k']? = some f' ∧ r = f'.rfn := by
      intro k' r h
      simp only [List.getElem?_map, Option.map_eq_some_iff] at h
      obtain ⟨f', h, e⟩ := h
      exact ⟨f', h, e.symm⟩
    have hncpl : Completion (cfgTy wr true) = false := by cases wr <;> rfl
    obtain ⟨d', who, es, e, hw, -⟩ := Dev.upstreamRecv_spec ⟨bus, fns.map EpFn.rfn⟩ ht.typ htg ht.check
      (by
        intro r hr'
        obtain ⟨f', hf', rfl⟩ := List.mem_map.1 hr'
        exact hg _ (List.mem_map.2 ⟨f', hf', rfl⟩))
      (by
        intro r hr' hfr
        obtain ⟨k', hk'⟩ := List.getElem?_of_mem hr'
        obtain ⟨f', hf', rfl⟩ := hget k' r hk'
        have := huniq k' f' hf' hfr
        subst this
        rw [hf] at hf'
        cases hf'
        unfold Prepared
        rw [if_neg (by rw [hncpl]; simp)]
        exact hh)
    rw [Node.recv, e]
    cases who with
    | none => exact absurd ⟨rfl, rfl⟩ (hw.1 f.rfn (List.mem_map.2 ⟨f, List.mem_of_getElem? hf, rfl⟩))
    | some k' =>
      obtain ⟨r, hr1, hr2, hr3, -⟩ := hw
      obtain ⟨f', hf', rfl⟩ := hget k' r hr1
      have := huniq k' f' hf' hr2
      subst this
      unfold Taken at hr3
      rw [if_neg (by rw [hncpl]; simp)] at hr3
      exact ⟨t, by rw [hr3], ht⟩
  | @sw up ports j b n path k f hj hf ih =>
    intro last m wr t0 t hn hi hm hg hid ht hh
    obtain ⟨s1, s2, s3, s4, s5, s6, s7⟩ := sw_nums hn hi
    obtain ⟨p1, p2⟩ := ports_nums ports s6 s7
    have hmem := List.mem_of_getElem? hj
    obtain ⟨⟨a1, a2, a3, a4, a5⟩, a6⟩ := p1 _ hmem
    simp only at a1 a2 a3 a4 a5
    have hbus : b.secBus ≤ f.id.bus ∧ f.id.bus ≤ b.subBus := by
      rcases fn_bus hf a4 a5 with ⟨h, -⟩ | h <;> omega
    rw [decide_eq_false (by omega)] at ht
    obtain ⟨t1, c1, e1⟩ := sw_cfg hg s6 s7 ⟨by omega, by omega⟩ hj ht (by rw [hid]; exact hbus)
    rw [hid] at c1
    obtain ⟨t2, e2, c2⟩ := ih a4 a5 (Nat.le_refl _) (fun B hB => hg B (by
      rw [Node.claims]; exact List.mem_cons_of_mem _ ((ports_mem _ _ hmem).2 B hB))) hid c1 hh
    exact ⟨t2, by rw [e1, e2]; rfl, c2⟩

theorem ready_cfg {host : BrFn σ} {ports : Ports σ} {l : Limits} {rs : List Region} (R : Ready host ports l rs) {path : List Nat} {k : Nat}
    {f : EpFn σ} (hf : FnAt (.sw host ports) path k f) {wr : Bool} {t : Tlp} (ht : t.fmtType = some (cfgTy wr false)) (hc : t.check = .ok true)
    (hid : t.completer_id = f.id) (hh : cfgTy wr true ∈ f.handlers) :
    ∃ t', (Node.sw host ports).recv t = .ok (.fn path k [.release, .handler t']) ∧ CfgOf wr true t t' := by
  cases hf with
  | sw hj hf =>
    have hmem := List.mem_of_getElem? hj
    obtain ⟨p, -⟩ := ready_ports R _ hmem
    obtain ⟨a1, a2, a3, a4, a5⟩ := p
    simp only at a1 a2 a3 a4 a5
    have hbus := fn_bus hf a4 a5
    obtain ⟨t1, c1, e1⟩ := sw_cfg (ready_good R) R.nums R.ids (by rw [R.bus.1, R.bus.2]; have := R.few; omega) hj ⟨ht, rfl, hc⟩
      (by rw [hid]; rcases hbus with ⟨h, -⟩ | h <;> omega)
    rw [hid] at c1
    obtain ⟨t2, e2, c2⟩ := recv_cfg hf a4 a5 (Nat.le_refl _) (fun B hB => ready_good R B (by
      rw [Node.claims]; exact List.mem_cons_of_mem _ ((ports_mem _ _ hmem).2 B hB))) hid c1 hh
    exact ⟨t2, by rw [e1, e2]; rfl, c2⟩

theorem fnAt_node {n : Node σ} {p : List Nat} {k : Nat} {f : EpFn σ} (h : FnAt n p k f) :
    ∃ m, NodeAt n p m ∧ ∃ bus fns, m = .dev bus fns := by
  induction h with
  | dev h => exact ⟨_, .here, _, _, rfl⟩
  | sw hj _ ih =>
    obtain ⟨m, h, h'⟩ := ih
    exact ⟨m, .sw hj h, h'⟩

theorem fnAt_prefix {n : Node σ} {p : List Nat} {k : Nat} {f : EpFn σ} (h : FnAt n p k f) : ∀ {q : List Nat} {k' : Nat} {g : EpFn σ},
    FnAt n q k' g → p <+: q → p = q := by
  induction h with
  | dev h => intro q k' g hg _; cases hg; rfl
  | @sw up ports j b n path k f hj hf ih =>
    intro q k' g hg hq
    cases hg with
    | sw hi hg =>
      obtain ⟨rfl, hq'⟩ := List.cons_prefix_cons.1 hq
      rw [hj] at hi
      cases hi
      rw [ih hg hq']

end Pcie
