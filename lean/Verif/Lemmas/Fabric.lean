import Verif.Lemmas.Route
import Verif.Lemmas.RouteMore
import Verif.Spec.Fabric
/-
Lemmas about the way of a TLP through a hierarchy.
-/
namespace Pcie
open Spec
variable {σ : Type}

theorem intact_refl (t : Tlp) : Intact t t := .inl rfl

theorem intact_copy (t : Tlp) : Intact t t.copy := .inr rfl

theorem intact_trans {a b c : Tlp} (h : Intact a b) (h' : Intact b c) : Intact a c := by
  rcases h with rfl | rfl <;> rcases h' with rfl | rfl
  · exact .inl rfl
  · exact .inr rfl
  · exact .inr rfl
  · exact .inr rfl

/-- What routing looks at is the same for intact TLPs. -/
structure Kind (t : Tlp) (ty : TlpType) (tg : Target) : Prop where
  typ : t.fmtType = some ty
  tgt : target t ty = some tg
  check : t.check = .ok true

theorem kind_intact {t t' : Tlp} {ty : TlpType} {tg : Target} (h : Kind t ty tg) (hi : Intact t t') : Kind t' ty tg := by
  rcases hi with rfl | rfl
  · exact h
  · exact ⟨h.typ, h.tgt, h.check⟩

theorem prepared_intact {hs : List TlpType} {t t' : Tlp} {ty : TlpType} (h : Prepared hs ty t) (hi : Intact t t') :
    Prepared hs ty t' := by
  rcases hi with rfl | rfl <;> exact h

theorem intact_eq {t t' : Tlp} (h : Intact t t') (hth : t.th = false) : t' = t := by
  rcases h with rfl | rfl
  · rfl
  · cases t; cases hth; rfl

theorem not_cfg {t : Tlp} {ty : TlpType} {tg : Target} (h : target t ty = some tg) (hr : Routed tg) : ty.isCfg = false := by
  cases ty <;> simp only [target, Option.some.injEq, reduceCtorEq] at h <;> subst h <;> first | exact hr.elim | rfl

theorem relayed_eq {sec : Nat} {t t' : Tlp} {ty : TlpType} (hr : ty.isCfg = false) (h : Relayed sec ty t t') : t' = t := by
  unfold Relayed at h
  rw [if_neg] at h
  · exact h
  · rintro ⟨h | h, -⟩ <;> subst h <;> cases hr

theorem Ports.recv_eq : ∀ (ports : Ports σ) (i j : Nat) (t : Tlp) (b : BrFn σ) (n : Node σ), ports.list[j]? = some (b, n) →
    ports.recv i j t = (match b.upstreamRecv t with
    | .error e => .error e
    | .ok (_, [.down t']) =>
      match n.recv t'.copy with
      | .error e => .error e
      | .ok f => .ok (f.under (i + j))
    | .ok (_, es) => .ok (.port [] (i + j) es))
  | .nil, i, j, t, b, n, h => by simp [Ports.list] at h
  | .cons b' n' rest, i, 0, t, b, n, h => by
    simp only [Ports.list, List.getElem?_cons_zero, Option.some.injEq, Prod.mk.injEq] at h
    rw [← h.1, ← h.2, Ports.recv]
    rfl
  | .cons b' n' rest, i, j + 1, t, b, n, h => by
    simp only [Ports.list, List.getElem?_cons_succ] at h
    rw [Ports.recv, Ports.recv_eq rest (i + 1) j t b n h, show i + 1 + j = i + (j + 1) by omega]

theorem swPorts_get {up : BrFn σ} {ports : Ports σ} {j : Nat} {b : BrFn σ} {n : Node σ} (h : ports.list[j]? = some (b, n)) :
    (swPorts up ports)[j + 1]? = some ⟨b, false⟩ := by
  simp [swPorts, h]

theorem swPorts_mem {up : BrFn σ} {ports : Ports σ} {p : SwPort σ} (h : p ∈ swPorts up ports) :
    p = ⟨up, true⟩ ∨ ∃ b n, (b, n) ∈ ports.list ∧ p = ⟨b, false⟩ := by
  simp only [swPorts, List.mem_cons, List.mem_map, Prod.exists] at h
  rcases h with h | ⟨b, n, h, e⟩
  · exact .inl h
  · exact .inr ⟨b, n, h, e.symm⟩

theorem swPorts_inv {up : BrFn σ} {ports : Ports σ} {j : Nat} {p : SwPort σ} (h : (swPorts up ports)[j]? = some p) :
    (j = 0 ∧ p = ⟨up, true⟩) ∨ ∃ i b n, j = i + 1 ∧ ports.list[i]? = some (b, n) ∧ p = ⟨b, false⟩ := by
  cases j with
  | zero => left; simpa [swPorts, eq_comm] using h
  | succ i =>
    right
    simp only [swPorts, List.getElem?_cons_succ, List.getElem?_map, Option.map_eq_some_iff, Prod.exists] at h
    obtain ⟨b, n, h, e⟩ := h
    exact ⟨i, b, n, rfl, h, e.symm⟩

theorem pairwise_get {α} {R : α → α → Prop} (hs : ∀ a b, R a b → R b a) {l : List α} (h : l.Pairwise R) {i j : Nat} {a b : α}
    (hi : l[i]? = some a) (hj : l[j]? = some b) (hij : i ≠ j) : R a b := by
  obtain ⟨hi', e1⟩ := List.getElem?_eq_some_iff.1 hi
  obtain ⟨hj', e2⟩ := List.getElem?_eq_some_iff.1 hj
  rw [List.pairwise_iff_getElem] at h
  rcases Nat.lt_or_gt_of_ne hij with hl | hl
  · have := h i j hi' hj' hl; rwa [e1, e2] at this
  · have := h j i hj' hi' hl; rw [e1, e2] at this; exact hs _ _ this

theorem goodBars_swPorts {up : BrFn σ} {ports : Ports σ} {tg : Target} (h : Configured tg (.sw up ports)) :
    ∀ p ∈ swPorts up ports, GoodBars p.bridge.bars := by
  cases h with
  | sw _ _ h1 h2 =>
    intro p hp
    rcases swPorts_mem hp with e | ⟨b, n, hm, e⟩
    · rw [e]; exact h1
    · rw [e]; exact (h2 _ hm).1

/-- Where a switch sends a TLP that is behind its port `j`. -/
theorem route_to {up : BrFn σ} {ports : Ports σ} {i j : Nat} {b : BrFn σ} {n : Node σ} {t : Tlp} {ty : TlpType} {tg : Target}
    (hc : Configured tg (.sw up ports)) (hk : Kind t ty tg) (hr : Routed tg) (hj : ports.list[j]? = some (b, n))
    (hb : ∀ b, BrIn (.sw up ports) b → ¬ ForFn b.id b.bars tg) (hs : ForSecondary b tg) (hij : i ≠ j + 1)
    (hi : i < (swPorts up ports).length) : Sw.route (swPorts up ports) i t = .ok (.to (j + 1)) := by
  obtain ⟨out, e, h⟩ := Sw.route_spec (swPorts up ports) i hi hk.typ hk.tgt (goodBars_swPorts hc)
  have htake : PortTakes (⟨b, false⟩ : SwPort σ) tg := .inr (by simpa using hs)
  have huniq : ∀ k p, (swPorts up ports)[k]? = some p → PortTakes p tg → k = j + 1 := by
    intro k p hk' hp
    cases hc with
    | sw _ _ h1 h2 h3 h4 =>
      rcases swPorts_inv hk' with ⟨-, e⟩ | ⟨k', b', n', rfl, hb', e⟩
      · rw [e] at hp
        rcases hp with hp | hp
        · exact absurd hp (hb _ .up)
        · simp only [if_true] at hp
          exact absurd (h3 _ (List.mem_of_getElem? hj) hs) hp
      · rw [e] at hp
        rcases hp with hp | hp
        · exact absurd hp (hb _ (.port (List.mem_of_getElem? hb')))
        · simp only [Bool.false_eq_true, if_false] at hp
          refine Classical.byContradiction fun hne => ?_
          exact pairwise_get (fun _ _ h h' => h h'.symm) h4 hb' hj (by omega) ⟨hp, hs⟩
  rw [e]
  cases out with
  | to k =>
    obtain ⟨-, p, hp, ht, -⟩ := h
    rw [huniq k p hp ht]
  | drop as => exact absurd htake (h.1 (j + 1) _ (fun e => hij e.symm) (swPorts_get hj))

/-- The bridge of a downstream port forwards what is behind it. -/
theorem port_down {up : BrFn σ} {ports : Ports σ} {i j : Nat} {b : BrFn σ} {n : Node σ} {t : Tlp} {ty : TlpType} {tg : Target}
    (hc : Configured tg (.sw up ports)) (hk : Kind t ty tg) (hr : Routed tg) (hj : ports.list[j]? = some (b, n))
    (hb : ∀ b, BrIn (.sw up ports) b → ¬ ForFn b.id b.bars tg) (hs : ForSecondary b tg) :
    ports.recv i j t = (match n.recv t.copy with | .error e => .error e | .ok f => .ok (f.under (i + j))) := by
  have hm := List.mem_of_getElem? hj
  cases hc with
  | sw _ _ h1 h2 =>
    obtain ⟨b', t', e, hrel⟩ := (b.upstreamRecv_spec hk.typ hk.tgt hk.check (h2 _ hm).1).2.1 (hb _ (.port hm)) hs
    rw [Ports.recv_eq _ _ _ _ _ _ hj, e, relayed_eq (not_cfg hk.tgt hr) hrel]

/-- A TLP for a function below gets there. -/
theorem recv_spec {n : Node σ} {path : List Nat} {k : Nat} {f : EpFn σ} (hf : FnAt n path k f) : ∀ {t : Tlp} {ty : TlpType} {tg : Target},
    Configured tg n → Kind t ty tg → Routed tg → EpFn.For f tg → (∀ b, BrIn n b → ¬ ForFn b.id b.bars tg) →
    Prepared f.handlers ty t → ∃ t' es, n.recv t = .ok (.fn path k es) ∧ Taken ty t' es ∧ Intact t t' := by
  induction hf with
  | @dev bus fns k f hf =>
    intro t ty tg hc hk hr hfor hb hp
    cases hc with
    | dev _ _ h1 h2 =>
      have huniq : ∀ (k' : Nat) (f' : EpFn σ), fns[k']? = some f' → EpFn.For f' tg → k' = k := by
        intro k' f' hf' hfor'
        refine Classical.byContradiction fun hne => ?_
        exact pairwise_get (fun _ _ h h' => h h'.symm) h2 hf' hf hne ⟨hfor', hfor⟩
      have hget : ∀ (k' : Nat) (r : RFn), (fns.map EpFn.rfn)[k']? = some r → ∃ f' : EpFn σ, fns[k']? = some f' ∧ r = f'.rfn := by
        intro k' r h
        simp only [List.getElem?_map, Option.map_eq_some_iff] at h
        obtain ⟨f', h, e⟩ := h
        exact ⟨f', h, e.symm⟩
      obtain ⟨d', who, es, e, hw, -⟩ := Dev.upstreamRecv_spec ⟨bus, fns.map EpFn.rfn⟩ hk.typ hk.tgt hk.check
        (by
          intro r hr'
          obtain ⟨f', hf', rfl⟩ := List.mem_map.1 hr'
          exact h1 f' hf')
        (by
          intro r hr' hfr
          obtain ⟨k', hk'⟩ := List.getElem?_of_mem hr'
          obtain ⟨f', hf', rfl⟩ := hget k' r hk'
          have := huniq k' f' hf' hfr
          subst this
          rw [hf] at hf'
          cases hf'
          exact hp)
      rw [Node.recv, e]
      cases who with
      | none => exact absurd hfor (hw.1 f.rfn (List.mem_map.2 ⟨f, List.mem_of_getElem? hf, rfl⟩))
      | some k' =>
        obtain ⟨r, hr1, hr2, hr3, -⟩ := hw
        obtain ⟨f', hf', rfl⟩ := hget k' r hr1
        have := huniq k' f' hf' hr2
        subst this
        exact ⟨t, es, rfl, hr3, intact_refl t⟩
  | @sw up ports j b n path k f hj hf ih =>
    intro t ty tg hc hk hr hfor hb hp
    have hm := List.mem_of_getElem? hj
    have hc' := hc
    cases hc with
    | sw _ _ h1 h2 h3 h4 h5 h6 h7 =>
      have hs : ForSecondary b tg := h5 _ hm path k f hf hfor
      obtain ⟨u', t', e, hrel⟩ := (up.upstreamRecv_spec hk.typ hk.tgt hk.check h1).2.1 (hb _ .up) (h3 _ hm hs)
      have := relayed_eq (not_cfg hk.tgt hr) hrel
      subst this
      have hroute := route_to hc' hk hr hj hb hs (i := 0) (by omega) (by simp [swPorts])
      obtain ⟨t'', es, e2, h8, h9⟩ := ih (h7 _ hm) (kind_intact hk (intact_copy t')) hr hfor (fun b' hb' => hb b' (.deeper hm hb'))
        (prepared_intact hp (intact_copy t'))
      refine ⟨t'', es, ?_, h8, intact_trans (intact_copy t') h9⟩
      rw [Node.recv, e]
      simp only [hroute, Nat.add_sub_cancel]
      rw [port_down hc' hk hr hj hb hs, e2]
      simp only [Nat.zero_add, Fate.under]

/-- The target is not in the ranges of the node. -/
def Outside (tg : Target) : Node σ → Prop
  | .sw up _ => up.root = false ∧ ¬ ForSecondary up tg
  | _ => True

theorem list_lt {up : BrFn σ} {ports : Ports σ} {j : Nat} {x : BrFn σ × Node σ} (h : ports.list[j]? = some x) :
    j + 1 < (swPorts up ports).length := by
  have := (List.getElem?_eq_some_iff.1 h).1
  simp only [swPorts, List.length_cons, List.length_map]
  omega

/-- A switch passes up what its upstream port takes. -/
theorem fromPort_exit {up : BrFn σ} {ports : Ports σ} {j : Nat} {x : BrFn σ × Node σ} {t : Tlp} {ty : TlpType} {tg : Target}
    (hc : Configured tg (.sw up ports)) (hk : Kind t ty tg) (hr : Routed tg) (hj : ports.list[j]? = some x)
    (hup : ForFn up.id up.bars tg ∨ ¬ ForSecondary up tg) (h1 : up.root = true ∨ ¬ ForFn up.id up.bars tg)
    (h2 : up.root = true ∨ ¬ ForSecondary up tg) : fromPort up ports j t = .ok (.exit t) := by
  obtain ⟨out, e, h⟩ := Sw.route_spec (swPorts up ports) (j + 1) (list_lt hj) hk.typ hk.tgt (goodBars_swPorts hc)
  have h0 : (swPorts up ports)[0]? = some ⟨up, true⟩ := rfl
  have ht : PortTakes (⟨up, true⟩ : SwPort σ) tg := by
    rcases hup with h | h
    · exact .inl h
    · exact .inr (by simpa using h)
  have hout : out = .to 0 := by
    cases out with
    | to k =>
      obtain ⟨-, p, -, -, h⟩ := h
      cases k with
      | zero => rfl
      | succ k => exact absurd ht (h 0 _ (by omega) (by omega) h0)
    | drop as => exact absurd ht (h.1 0 _ (by omega) h0)
  cases hc with
  | sw _ _ hb =>
    obtain ⟨u', e'⟩ := (up.downstreamRecv_spec hk.typ hk.tgt hk.check hb).2.2.1 (not_cfg hk.tgt hr) h1 h2
    unfold fromPort
    rw [e, hout]
    simp only [e']

/-- A TLP for a target outside leaves upwards. -/
theorem rise_exit {n m : Node σ} {path : List Nat} (hm : NodeAt n path m) : ∀ {start : Node σ → Py Fate} {t : Tlp} {ty : TlpType} {tg : Target},
    Configured tg n → Kind t ty tg → Routed tg → (∀ b, BrIn n b → ¬ ForFn b.id b.bars tg) → Outside tg n →
    start m = .ok (.exit t) → ∃ t', n.rise path start = .ok (.exit t') ∧ Intact t t' := by
  induction hm with
  | here => intro start t ty tg _ _ _ _ _ hs; exact ⟨t, by rw [Node.rise]; exact hs, intact_refl t⟩
  | @sw up ports j b n path m hj hm ih =>
    intro start t ty tg hc hk hr hb ho hs
    have hmem := List.mem_of_getElem? hj
    have hc' := hc
    cases hc with
    | sw _ _ h1 h2 h3 h4 h5 h6 h7 =>
      have hns : ¬ ForSecondary b tg := fun h => ho.2 (h3 _ hmem h)
      have ho' : Outside tg n := by
        cases n with
        | sw u ps =>
          obtain ⟨a1, a2⟩ := h6 _ hmem u ps rfl
          exact ⟨a1, fun h => hns (a2 h)⟩
        | none => trivial
        | dev _ _ => trivial
      obtain ⟨t1, e1, i1⟩ := ih (h7 _ hmem) hk hr (fun b' hb' => hb b' (.deeper hmem hb')) ho' hs
      have i2 := intact_trans i1 (intact_copy t1)
      have hk2 := kind_intact hk i2
      obtain ⟨b', e2⟩ := (b.downstreamRecv_spec hk2.typ hk2.tgt hk2.check (h2 _ hmem).1).2.2.1 (not_cfg hk.tgt hr)
        (.inr (hb _ (.port hmem))) (.inr hns)
      refine ⟨t1.copy, ?_, i2⟩
      rw [Node.rise, hj]
      simp only [e1, e2]
      exact fromPort_exit hc' hk2 hr hj (.inr ho.2) (.inr (hb _ .up)) (.inr ho.2)

/-- A TLP from below reaches the root complex if it is for it. -/
theorem rise_root {host : BrFn σ} {ports : Ports σ} {path : List Nat} {m : Node σ} (hm : NodeAt (.sw host ports) path m)
    {start : Node σ → Py Fate} {t : Tlp} {ty : TlpType} {tg : Target}
    (hc : Configured tg (.sw host ports)) (hk : Kind t ty tg) (hr : Routed tg) (hroot : host.root = true)
    (hb' : ∀ x ∈ ports.list, (∀ b, BrIn x.2 b → ¬ ForFn b.id b.bars tg) ∧ ¬ ForFn x.1.id x.1.bars tg)
    (ho : (ForFn host.id host.bars tg ∧ ∀ x ∈ ports.list, ¬ ForSecondary x.1 tg) ∨ ¬ ForSecondary host tg)
    (hs : start m = .ok (.exit t)) : ∃ t', (Node.sw host ports).rise path start = .ok (.exit t') ∧ Intact t t' := by
  cases hm with
  | here => exact ⟨t, by rw [Node.rise]; exact hs, intact_refl t⟩
  | @sw _ _ j b n path m hj hm =>
    have hmem := List.mem_of_getElem? hj
    have hc' := hc
    cases hc with
    | sw _ _ h1 h2 h3 h4 h5 h6 h7 =>
      have hns : ¬ ForSecondary b tg := by
        rcases ho with ⟨-, h⟩ | h
        · exact h _ hmem
        · exact fun h' => h (h3 _ hmem h')
      have ho' : Outside tg n := by
        cases n with
        | sw u ps =>
          obtain ⟨a1, a2⟩ := h6 _ hmem u ps rfl
          exact ⟨a1, fun h => hns (a2 h)⟩
        | none => trivial
        | dev _ _ => trivial
      obtain ⟨t1, e1, i1⟩ := rise_exit hm (h7 _ hmem) hk hr (hb' _ hmem).1 ho' hs
      have i2 := intact_trans i1 (intact_copy t1)
      have hk2 := kind_intact hk i2
      obtain ⟨b', e2⟩ := (b.downstreamRecv_spec hk2.typ hk2.tgt hk2.check (h2 _ hmem).1).2.2.1 (not_cfg hk.tgt hr)
        (.inr (hb' _ hmem).2) (.inr hns)
      refine ⟨t1.copy, ?_, i2⟩
      rw [Node.rise, hj]
      simp only [e1, e2]
      exact fromPort_exit hc' hk2 hr hj (ho.imp And.left id) (.inl hroot) (.inl hroot)

/-- A TLP for a function elsewhere in the hierarchy gets there. -/
theorem rise_peer {n m : Node σ} {path : List Nat} (hm : NodeAt n path m) : ∀ {start : Node σ → Py Fate} {t : Tlp} {ty : TlpType} {tg : Target}
    {q : List Nat} {k : Nat} {f : EpFn σ}, Configured tg n → Kind t ty tg → Routed tg → (∀ b, BrIn n b → ¬ ForFn b.id b.bars tg) →
    FnAt n q k f → EpFn.For f tg → Prepared f.handlers ty t → ¬ path <+: q → start m = .ok (.exit t) →
    ∃ t' es, n.rise path start = .ok (.fn q k es) ∧ Taken ty t' es ∧ Intact t t' := by
  induction hm with
  | here => intro start t ty tg q k f _ _ _ _ _ _ _ hq _; exact absurd List.nil_prefix hq
  | @sw up ports j b n path m hj hm ih =>
    intro start t ty tg q k f hc hk hr hb hf hfor hp hq hs
    have hmem := List.mem_of_getElem? hj
    have hc' := hc
    cases hf with
    | @sw _ _ i bi ni q _ _ hi hf =>
      have hmemi := List.mem_of_getElem? hi
      cases hc with
      | sw _ _ h1 h2 h3 h4 h5 h6 h7 =>
        have hsi : ForSecondary bi tg := h5 _ hmemi q k f hf hfor
        by_cases hij : i = j
        · subst hij
          rw [hj] at hi
          cases hi
          obtain ⟨t', es, e, h8, h9⟩ := ih (h7 _ hmem) hk hr (fun b' hb' => hb b' (.deeper hmem hb')) hf hfor hp
            (fun h => hq (List.cons_prefix_cons.2 ⟨rfl, h⟩)) hs
          refine ⟨t', es, ?_, h8, h9⟩
          rw [Node.rise, hj]
          simp only [e, Fate.under]
        · have hns : ¬ ForSecondary b tg := fun h =>
            pairwise_get (fun _ _ h h' => h h'.symm) h4 hi hj hij ⟨hsi, h⟩
          have ho' : Outside tg n := by
            cases n with
            | sw u ps =>
              obtain ⟨a1, a2⟩ := h6 _ hmem u ps rfl
              exact ⟨a1, fun h => hns (a2 h)⟩
            | none => trivial
            | dev _ _ => trivial
          obtain ⟨t1, e1, i1⟩ := rise_exit hm (h7 _ hmem) hk hr (fun b' hb' => hb b' (.deeper hmem hb')) ho' hs
          have i2 := intact_trans i1 (intact_copy t1)
          have hk2 := kind_intact hk i2
          obtain ⟨b', e2⟩ := (b.downstreamRecv_spec hk2.typ hk2.tgt hk2.check (h2 _ hmem).1).2.2.1 (not_cfg hk.tgt hr)
            (.inr (hb _ (.port hmem))) (.inr hns)
          have i3 := intact_trans i2 (intact_copy t1.copy)
          obtain ⟨t', es, e3, h8, h9⟩ := recv_spec hf (h7 _ hmemi) (kind_intact hk i3) hr hfor
            (fun b' hb' => hb b' (.deeper hmemi hb')) (prepared_intact hp i3)
          refine ⟨t', es, ?_, h8, intact_trans i3 h9⟩
          rw [Node.rise, hj]
          simp only [e1, e2]
          unfold fromPort
          rw [route_to hc' hk2 hr hi hb hsi (by omega) (list_lt hj)]
          simp only
          rw [port_down hc' hk2 hr hi hb hsi, e3]
          simp only [Nat.zero_add, Fate.under]

/-- A TLP for no function below is refused, unless it ends at a port without a link. -/
theorem recv_refused {n : Node σ} {tg : Target} (hc : Configured tg n) : ∀ {t : Tlp} {ty : TlpType}, Kind t ty tg → Routed tg →
    (∀ b, BrIn n b → ¬ ForFn b.id b.bars tg) → (∀ path k f, FnAt n path k f → ¬ EpFn.For f tg) →
    ∃ fate t', n.recv t = .ok fate ∧ ((∃ path, fate = .open_ path) ∨ Refused n ty t' fate) ∧ Intact t t' := by
  induction hc with
  | none => intro t ty _ _ _ _; exact ⟨_, t, by rw [Node.recv], .inl ⟨[], rfl⟩, intact_refl t⟩
  | dev bus fns h1 h2 =>
    intro t ty hk hr hb hf
    have hnone : ∀ r ∈ fns.map EpFn.rfn, ¬ ForFn r.id r.bars tg := by
      intro r hr' h
      obtain ⟨f, hf', rfl⟩ := List.mem_map.1 hr'
      obtain ⟨k, hk'⟩ := List.getElem?_of_mem hf'
      exact hf [] k f (.dev hk') h
    obtain ⟨d', who, es, e, hw, -⟩ := Dev.upstreamRecv_spec ⟨bus, fns.map EpFn.rfn⟩ hk.typ hk.tgt hk.check
      (by
        intro r hr'
        obtain ⟨f', hf', rfl⟩ := List.mem_map.1 hr'
        exact h1 f' hf')
      (fun r hr' h => absurd h (hnone r hr'))
    cases who with
    | none => exact ⟨_, t, by rw [Node.recv, e], .inr (.dev .here hw.2), intact_refl t⟩
    | some k =>
      obtain ⟨r, hr1, hr2, -⟩ := hw
      exact absurd hr2 (hnone r (List.mem_of_getElem? hr1))
  | sw up ports h1 h2 h3 h4 h5 h6 h7 ih =>
    intro t ty hk hr hb hf
    have hc' : Configured tg (.sw up ports) := .sw up ports h1 h2 h3 h4 h5 h6 h7
    by_cases hs : ForSecondary up tg
    · obtain ⟨u', t', e, hrel⟩ := (up.upstreamRecv_spec hk.typ hk.tgt hk.check h1).2.1 (hb _ .up) hs
      have := relayed_eq (not_cfg hk.tgt hr) hrel
      subst this
      obtain ⟨out, e2, h⟩ := Sw.route_spec (swPorts up ports) 0 (by simp [swPorts]) hk.typ hk.tgt (goodBars_swPorts hc')
      cases out with
      | drop as =>
        exact ⟨.refused [] 0 as, t', by rw [Node.recv, e]; simp only [e2], .inr (.switch .here h.2), intact_refl t'⟩
      | to j =>
        obtain ⟨hj0, p, hp, ht, -⟩ := h
        rcases swPorts_inv hp with ⟨h0, -⟩ | ⟨i, b, n, rfl, hi, rfl⟩
        · exact absurd h0 hj0
        · have hmem := List.mem_of_getElem? hi
          have hsb : ForSecondary b tg := by
            rcases ht with ht | ht
            · exact absurd ht (hb _ (.port hmem))
            · simpa using ht
          obtain ⟨fate, t2, e3, h8, h9⟩ := ih _ hmem (kind_intact hk (intact_copy t')) hr (fun b' hb' => hb b' (.deeper hmem hb'))
            (fun path k f hf' => hf _ k f (.sw hi hf'))
          refine ⟨fate.under i, t2, ?_, ?_, intact_trans (intact_copy t') h9⟩
          · rw [Node.recv, e]
            simp only [e2, Nat.add_sub_cancel]
            rw [port_down hc' hk hr hi hb hsb, e3]
            simp only [Nat.zero_add]
          · rcases h8 with ⟨path, rfl⟩ | h8
            · exact .inl ⟨_, rfl⟩
            · right
              cases h8 with
              | dev h' h => exact .dev (.sw hi h') h
              | up h' h => exact .up (.sw hi h') h
              | switch h' h => exact .switch (.sw hi h') h
    · obtain ⟨u', es, e, hd⟩ := (up.upstreamRecv_spec hk.typ hk.tgt hk.check h1).2.2 (hb _ .up) hs
      refine ⟨.up [] es, t, ?_, .inr (.up .here hd), intact_refl t⟩
      rw [Node.recv, e]
      unfold Dropped at hd
      split at hd
      · obtain ⟨cpl, -, rfl⟩ := hd; rfl
      · subst hd; rfl

end Pcie
