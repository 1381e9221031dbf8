/- Enumeration by configuration accesses, and what the host knows afterwards. -/
import Verif.Lemmas.HostAssign
import Verif.Lemmas.FabricEnum
namespace Pcie
open Spec Phys
variable {σ : Type}

private theorem add_flag_lt {base k : Nat} (h1 : 4 ≤ k) (_ : k < 32) (h3 : base % 2 ^ k = 0) (h4 : base < 2 ^ 32) : base + 15 < 2 ^ 32 := by
  have : 2 ^ 4 ∣ base := Nat.dvd_trans (Nat.pow_dvd_pow 2 h1) (Nat.dvd_of_mod_eq_zero h3)
  omega

private theorem add_flag_lt1 {base k : Nat} (h1 : 2 ≤ k) (_ : k < 32) (h3 : base % 2 ^ k = 0) (h4 : base < 2 ^ 32) : base + 3 < 2 ^ 32 := by
  have : 2 ^ 2 ∣ base := Nat.dvd_trans (Nat.pow_dvd_pow 2 h1) (Nat.dvd_of_mod_eq_zero h3)
  omega

theorem layout_lt {i : Nat} {rs : List BarReg} {ws : List Window} (h : Layout i rs ws) : BarsLt rs := by
  induction h with
  | nil i => intro r hr; exact nomatch hr
  | absent i r rs ws h0 _ ih =>
    intro x hx
    rcases List.mem_cons.1 hx with rfl | hx
    · rw [h0]; decide
    · exact ih x hx
  | mem32 i r rs ws base k h0 _ ih =>
    intro x hx
    rcases List.mem_cons.1 hx with rfl | hx
    · obtain ⟨h1, h2, h3, h4, h5, -⟩ := h0
      have := add_flag_lt h1 h2 h3 h4
      omega
    · exact ih x hx
  | io i r rs ws base k h0 _ ih =>
    intro x hx
    rcases List.mem_cons.1 hx with rfl | hx
    · obtain ⟨h1, h2, h3, h4, h5, -⟩ := h0
      have := add_flag_lt1 h1 h2 h3 h4
      omega
    · exact ih x hx
  | mem64 i lo hi rs ws base k h0 _ ih =>
    obtain ⟨q1, q2, q3, q4, q5, q6, -⟩ := h0
    have h2 : hi.val < 2 ^ 32 := by omega
    have h1 : lo.val < 2 ^ 32 := by
      have : base % 2 ^ 4 = 0 := by
        have : 2 ^ 4 ∣ base := Nat.dvd_trans (Nat.pow_dvd_pow 2 q1) (Nat.dvd_of_mod_eq_zero q3)
        omega
      omega
    intro x hx
    rcases List.mem_cons.1 hx with rfl | hx
    · exact h1
    · rcases List.mem_cons.1 hx with rfl | hx
      · exact h2
      · exact ih x hx

theorem brBars_of (b : Phys σ) : ∀ {rs : List Region}, Tree Any b.bus rs → BrBars b := by
  induction b with
  | nil => intro rs _; trivial
  | ep d fn f rest ih =>
    intro rs h
    cases h with
    | ep _ _ ws r _ rs h1 _ h2 => exact ih h2
  | br d fn dsp f child rest ihc ih =>
    intro rs h
    cases h with
    | br _ _ ws r _ _ cs rs h1 _ h2 h3 => exact ⟨layout_lt h1.lay, ihc h2, ih h3⟩

/-! ### The same functions with other registers -/

theorem Skel.refl (a : Phys σ) : Skel a a := by
  induction a with
  | nil => exact .nil
  | ep d fn f rest ih => exact .ep ih
  | br d fn dsp f child rest ihc ih => exact .br ihc ih

theorem skel_withRegs (t : Phys σ) : ∀ b : Bus σ, Skel t (t.withRegs b) := by
  induction t with
  | nil => intro b; cases b <;> exact .nil
  | ep d fn f rest ih =>
    intro b
    cases b with
    | ep g dd b => exact .ep (ih b)
    | nil => exact Skel.refl _
    | br => exact Skel.refl _
  | br d fn dsp f child rest ihc ih =>
    intro b
    cases b with
    | br g dd bc b => exact .br (ihc bc) (ih b)
    | nil => exact Skel.refl _
    | ep => exact Skel.refl _

theorem skel_rdAll (ops : CapOps σ) (b : Phys σ) : Skel b (rdAll ops b) := by
  induction b with
  | nil => exact .nil
  | ep d fn f rest ih => exact .ep ih
  | br d fn dsp f child rest ihc ih => exact .br ihc ih

theorem skel_bridges {a b : Phys σ} (h : Skel a b) : bridges b = bridges a := by
  induction h with
  | nil => rfl
  | ep _ ih => exact ih
  | br _ _ ihc ih => simp only [bridges, ihc, ih]

theorem skel_top {a b : Phys σ} (h : Skel a b) : (top b).map (fun e => (e.1, e.2.1)) = (top a).map (fun e => (e.1, e.2.1)) := by
  induction h with
  | nil => rfl
  | ep _ ih => simp [top, ih]
  | br _ _ _ ih => simp [top, ih]

theorem skel_idsTop {a b : Phys σ} (h : Skel a b) (n : Nat) : idsTop n b = idsTop n a := by
  have := congrArg (List.map fun e : Nat × Nat => (⟨n, e.1, e.2⟩ : PcieId)) (skel_top h)
  rw [List.map_map, List.map_map] at this
  exact this

theorem skel_idsBelow {a b : Phys σ} (h : Skel a b) : ∀ last, idsBelow last b = idsBelow last a := by
  induction h with
  | nil => intro last; rfl
  | ep _ ih => exact ih
  | br h1 _ ihc ih => intro last; simp only [idsBelow, ihc, ih, skel_idsTop h1, skel_bridges h1]

theorem skel_sorted {a b : Phys σ} (h : Skel a b) : SortedBelow a → SortedBelow b := by
  induction h with
  | nil => exact id
  | ep _ ih => exact ih
  | br h1 _ ihc ih => exact fun hs => ⟨pairwise_map (skel_top h1).symm hs.1, ihc hs.2.1, ih hs.2.2⟩

/-! ### Enumeration -/

theorem knows_of {m : Nat} {t : Phys σ} {tree : Host.Tree} {b : Bus σ} (h : Matches m t tree b) : ∀ {rs : List Region}, Tree Recorded b rs → Knows m t tree := by
  induction h with
  | nil => intro rs _; exact .nil
  | ep h1 _ _ ih =>
    intro rs ht
    cases ht with
    | ep _ _ ws r _ rs q1 q2 q3 => exact .fn h1 q1 q2 (ih q3)
  | br h1 _ _ _ _ ihc ih =>
    intro rs ht
    cases ht with
    | br _ _ ws r _ _ cs rs q1 q2 q3 q4 => exact .bridge h1 q1 q2 (ihc q3) (ih q4)

theorem enumerate_host (ops : CapOps σ) (tag : Tlp → Nat) {host : BrFn σ} {ports : Ports σ} {rs : List Region} (hr : AfterReset host ports rs)
    (hh : CfgHost host) (hp : CfgPorts ports) (hfill : ports.Filled) (ht : Typed ports.bus) {fuel : Nat} (hd : depth ports.bus < fuel)
    {n : Node σ} {l : Limits} (h : enumerateAll ops fuel host ports = .ok (n, l)) :
    ∃ tree ports' b2, Node.enumerate ops tag fuel host ports = .ok (n, tree, l) ∧ n = .sw (host.setHost l) ports' ∧ CfgPorts ports' ∧
      Matches 0 ports'.bus tree b2 ∧ numbered 0 0 ports'.bus = ports'.bus ∧ Skel ports.bus ports'.bus ∧ bridges ports'.bus ≤ 255 ∧
      (l.mem ≤ 2 ^ 64 ∧ l.pref ≤ 2 ^ 64 → ∃ rs', Tree Recorded b2 rs') := by
  have ho := hr.bus0
  have ho' : BusOk ((0 : Nat) = 0) false (top ports.bus) := by simpa using ho
  unfold enumerateAll enumerate at h
  by_cases hk : bridges ports.bus ≤ 255
  swap
  · have e := scan_err ops fuel [] 0 ports.bus false rfl ho' hr.buses hr.fresh hd (by omega) (by omega)
    simp only [plug] at e
    obtain ⟨e', he⟩ := e
    rw [scanRoot, he] at h
    cases h
  have h1 := scan_spec ops fuel [] 0 ports.bus false rfl ho' hr.buses hr.fresh hd (by omega)
  simp only [plug] at h1
  rw [scanRoot, h1] at h
  simp only [ok_bind] at h
  obtain ⟨b1, rs1, e1, t1, -, -, -, -, -⟩ := readBus_spec ops _ rs (tree_numbered ports.bus 0 0 hr.bars)
  rw [e1] at h
  simp only [ok_bind] at h
  cases e2 : assignBus ops b1 hostLimits with
  | error e => rw [e2] at h; cases h
  | ok p =>
    obtain ⟨b2, l2⟩ := p
    rw [e2] at h
    simp only [ok_bind, pure, Except.pure, Except.ok.injEq, Prod.mk.injEq] at h
    obtain ⟨rfl, rfl⟩ := h
    obtain ⟨hg, hm⟩ := readBus_numbered ops ports.bus 0 0 b1 e1 ht (brBars_of _ hr.bars)
    obtain ⟨t, s1, s2⟩ := scan_tr (ops := ops) (tag := tag) hh fuel [] 0 ports.bus false (fun _ => False) rfl ho' hr.buses hr.fresh hg hd (by omega)
    have hsk : Skel ports.bus (numbered 0 0 (rdAll ops ports.bus)) := (skel_rdAll ops ports.bus).trans (skel_numbered _ 0 0)
    have hnn : ∀ (b : Phys σ) (n last : Nat), numbered n last (numbered n last b) = numbered n last b := by
      intro b
      induction b with
      | nil => intro n last; rfl
      | ep d fn f rest ih => intro n last; simp only [numbered, ih]
      | br d fn dsp f child rest ihc ih => intro n last; simp only [numbered, bridges_numbered, ihc, ih]
    obtain ⟨tree', a1, a2, a3, a4⟩ := assign_tr (ops := ops) (tag := tag) hh (hm t s2) [] .nil 0 255
      (fun id => id ∈ idsTop 0 ports.bus ++ idsBelow 0 ports.bus) hostLimits l2 b2 rfl (Nat.le_refl _)
      (by rw [skel_bridges hsk]; omega) (Nat.le_refl _) (hnn _ 0 0) (by intro p hp; simp [brsOf] at hp) (pairwise_map (skel_top hsk).symm ho.sorted)
      (skel_sorted hsk (sortedBelow_of hr.buses))
      (fun _ e he => by
        have h1 : (e.1, e.2.1) ∈ (top ports.bus).map (fun e => (e.1, e.2.1)) := by
          rw [← skel_top hsk]; exact List.mem_map_of_mem (f := fun e : Nat × Nat × Fn σ => (e.1, e.2.1)) he
        obtain ⟨e', he', h2⟩ := List.mem_map.1 h1
        simp only [Prod.mk.injEq] at h2
        rw [← h2.1]
        exact ho.host rfl e' he') e2
    have hwr := withRegs_rdAll ops ports.bus 0 0 0 b2 tree' a2
    rw [← hwr] at a1 a2 a3 a4
    simp only [plug, app] at a1 s1
    have hsk2 : Skel ports.bus ((numbered 0 0 ports.bus).withRegs b2) := (skel_numbered _ 0 0).trans (skel_withRegs _ b2)
    have hpr : Tr ops tag host (Host.probe fuel) ports.bus (fun _ => False) (tree', l2) ((numbered 0 0 ports.bus).withRegs b2)
        (fun id => id ∈ idsTop 0 ports.bus ++ idsBelow 0 ports.bus) :=
      Tr.bind s1 (Tr.mono a1 (fun id h => .inr h) (fun _ h => h))
    obtain ⟨ports', r1, r2, r3, r4, r5⟩ := hpr ports hp rfl (fun _ h => h.elim)
    have hnum : ports'.Numbered 0 := by
      refine Ports.numbered_of ports' 0 0 _ (by rw [r4]; exact a3.symm) (Nat.le_refl _) (pairwise_map (skel_top hsk2).symm ho.sorted)
        (skel_sorted hsk2 (sortedBelow_of hr.buses)) (Ports.filled_same ports r3 hfill) ?_ ?_
      · intro id hid
        rw [skel_idsTop hsk2] at hid
        have := r5 id (List.mem_append_left _ hid)
        obtain ⟨e, -, rfl⟩ := List.mem_map.1 hid
        exact this
      · intro id hid
        rw [skel_idsBelow hsk2] at hid
        have := r5 id (List.mem_append_right _ hid)
        have hgt := idsBelow_gt id hid
        unfold Right at this
        rw [decide_eq_false (by omega)] at this
        exact this
    have hset : ports.setup 0 ((numbered 0 0 ports.bus).withRegs b2) = ports' := by
      rw [← r4]; exact Ports.setup_of ports 0 r3 hnum
    refine ⟨tree', ports', b2, ?_, by rw [hset], r2, by rw [r4]; exact a2, by rw [r4]; exact a3, by rw [r4]; exact hsk2,
      by rw [r4, skel_bridges hsk2]; exact hk, fun hl => ?_⟩
    · rw [hset]
      unfold Node.enumerate
      rw [r1]
    · obtain ⟨rs', q, -⟩ := assignBus_spec ops b1 rs1 t1 hostLimits b2 l2 e2 hl
      exact ⟨rs', q⟩

/-! ### Finding devices -/

theorem on_ep {m d fn k : Nat} {f : Ep σ} {rest : Phys σ} {e : Nat × Nat × Fn σ} :
    On m (.ep d fn f rest) k e ↔ (k = m ∧ e = (d, fn, .ep f)) ∨ On m rest k e := by
  constructor
  · intro h
    cases h with
    | here h =>
      rcases List.mem_cons.1 h with rfl | h
      · exact .inl ⟨rfl, rfl⟩
      · exact .inr (.here h)
    | deeper h1 h2 => exact .inr (.deeper h1 h2)
  · rintro (⟨rfl, rfl⟩ | h)
    · exact .here (by simp [top])
    · cases h with
      | here h => exact .here (by simp [top, h])
      | deeper h1 h2 => exact .deeper h1 h2

theorem on_br {m d fn k : Nat} {dsp : Bool} {f : Br σ} {child rest : Phys σ} {e : Nat × Nat × Fn σ} :
    On m (.br d fn dsp f child rest) k e ↔ (k = m ∧ e = (d, fn, .br dsp f)) ∨ On f.secBus child k e ∨ On m rest k e := by
  constructor
  · intro h
    cases h with
    | here h =>
      rcases List.mem_cons.1 h with rfl | h
      · exact .inl ⟨rfl, rfl⟩
      · exact .inr (.inr (.here h))
    | deeper h1 h2 =>
      rcases List.mem_cons.1 h1 with h | h
      · cases h; exact .inr (.inl h2)
      · exact .inr (.inr (.deeper h h2))
  · rintro (⟨rfl, rfl⟩ | h | h)
    · exact .here (by simp [top])
    · exact .deeper (f := f) (c := child) (by simp [brsOf]) h
    · cases h with
      | here h => exact .here (by simp [top, h])
      | deeper h1 h2 => exact .deeper (by simp [brsOf, h1]) h2

theorem on_nil {m k : Nat} {e : Nat × Nat × Fn σ} : ¬ On m (.nil : Phys σ) k e := by
  intro h
  cases h with
  | here h => exact nomatch h
  | deeper h _ => exact nomatch h

theorem on_bus {R : Phys σ} : ∀ {m last k : Nat} {e : Nat × Nat × Fn σ}, numbered m last R = R → On m R k e → k = m ∧ e ∈ top R ∨ last < k ∧ k ≤ last + bridges R := by
  induction R with
  | nil => intro m last k e _ h; exact (on_nil h).elim
  | ep d fn f rest ih =>
    intro m last k e hn h
    simp only [numbered, Phys.ep.injEq, true_and] at hn
    rcases on_ep.1 h with ⟨rfl, rfl⟩ | h
    · exact .inl ⟨rfl, by simp [top]⟩
    · rcases ih hn h with ⟨h1, h2⟩ | h
      · exact .inl ⟨h1, by simp [top, h2]⟩
      · exact .inr h
  | br d fn dsp f child rest ihc ih =>
    intro m last k e hn h
    simp only [numbered, Phys.br.injEq, true_and] at hn
    obtain ⟨n1, n2, n3⟩ := hn
    have hsec : f.secBus = last + 1 := congrArg Br.secBus n1.symm
    simp only [bridges]
    rcases on_br.1 h with ⟨rfl, rfl⟩ | h | h
    · exact .inl ⟨rfl, by simp [top]⟩
    · rw [hsec] at h
      rcases ihc n2 h with h | h <;> exact .inr (by omega)
    · rcases ih n3 h with ⟨h1, h2⟩ | h
      · exact .inl ⟨h1, by simp [top, h2]⟩
      · exact .inr (by omega)

/-- Different functions have different numbers. -/
theorem on_unique {R : Phys σ} : ∀ {m last k : Nat} {e e' : Nat × Nat × Fn σ}, m ≤ last → numbered m last R = R → (top R).Pairwise Before → SortedBelow R →
    On m R k e → On m R k e' → e.1 = e'.1 → e.2.1 = e'.2.1 → e = e' := by
  induction R with
  | nil => intro m last k e e' _ _ _ _ h; exact (on_nil h).elim
  | ep d fn f rest ih =>
    intro m last k e e' hm hn hs hb h h' h1 h2
    simp only [numbered, Phys.ep.injEq, true_and] at hn
    obtain ⟨hs1, hs2⟩ := List.pairwise_cons.1 hs
    have key : ∀ {x : Nat × Nat × Fn σ}, On m rest k x → k = m → x.1 = d → x.2.1 = fn → False := fun {x} hx hk q1 q2 => by
      rcases on_bus hn hx with ⟨-, q⟩ | q
      · have := hs1 x q
        simp only [Before] at this
        omega
      · omega
    rcases on_ep.1 h with ⟨rfl, rfl⟩ | h
    · rcases on_ep.1 h' with ⟨-, rfl⟩ | h'
      · rfl
      · exact (key h' rfl h1.symm h2.symm).elim
    · rcases on_ep.1 h' with ⟨rfl, rfl⟩ | h'
      · exact (key h rfl h1 h2).elim
      · exact ih hm hn hs2 hb h h' h1 h2
  | br d fn dsp f child rest ihc ih =>
    intro m last k e e' hm hn hs hb h h' h1 h2
    simp only [numbered, Phys.br.injEq, true_and] at hn
    obtain ⟨n1, n2, n3⟩ := hn
    have hsec : f.secBus = last + 1 := congrArg Br.secBus n1.symm
    obtain ⟨hs1, hs2⟩ := List.pairwise_cons.1 hs
    have keyR : ∀ {x : Nat × Nat × Fn σ}, On m rest k x → k = m ∧ x ∈ top rest ∨ last + 1 + bridges child < k := fun {x} hx => by
      rcases on_bus n3 hx with q | q
      · exact .inl q
      · exact .inr q.1
    have keyC : ∀ {x : Nat × Nat × Fn σ}, On f.secBus child k x → last < k ∧ k ≤ last + 1 + bridges child := fun {x} hx => by
      rw [hsec] at hx
      rcases on_bus n2 hx with q | q <;> omega
    have key : ∀ {x : Nat × Nat × Fn σ}, On m rest k x → k = m → x.1 = d → x.2.1 = fn → False := fun {x} hx hk q1 q2 => by
      rcases keyR hx with ⟨-, q⟩ | q
      · have := hs1 x q
        simp only [Before] at this
        omega
      · omega
    rcases on_br.1 h with ⟨hk, rfl⟩ | h | h
    · rcases on_br.1 h' with ⟨-, rfl⟩ | h' | h'
      · rfl
      · have := keyC h'; omega
      · exact (key h' hk h1.symm h2.symm).elim
    · rcases on_br.1 h' with ⟨hk, rfl⟩ | h' | h'
      · have := keyC h; omega
      · rw [hsec] at h h'
        exact ihc (Nat.le_refl _) n2 hb.1 hb.2.1 h h' h1 h2
      · have := keyC h
        rcases keyR h' with q | q <;> omega
    · rcases on_br.1 h' with ⟨hk, rfl⟩ | h' | h'
      · exact (key h hk h1 h2).elim
      · have := keyC h'
        rcases keyR h with q | q <;> omega
      · exact ih (by omega) n3 hs2 hb.2.2 h h' h1 h2

/-- All devices. -/
def Host.Tree.all : Host.Tree → List Host.Device
  | .nil => []
  | .fn p rest => p :: rest.all
  | .bridge p child rest => p :: (child.all ++ rest.all)

theorem Host.Tree.devices_all {t : Host.Tree} : ∀ p ∈ t.devices, p ∈ t.all := by
  induction t with
  | nil => intro p h; exact h
  | fn q rest ih =>
    intro p h
    rcases List.mem_cons.1 h with rfl | h
    · exact List.mem_cons_self
    · exact List.mem_cons_of_mem _ (ih p h)
  | bridge q child rest _ ih =>
    intro p h
    rcases List.mem_cons.1 h with rfl | h
    · exact List.mem_cons_self
    · exact List.mem_cons_of_mem _ (List.mem_append_right _ (ih p h))

theorem Host.Tree.findSub_some {t : Host.Tree} {id : PcieId} {p : Host.Device} (h : t.findSub id = some p) : p ∈ t.all ∧ p.id = id := by
  induction t with
  | nil => cases h
  | fn q rest ih => exact ⟨List.mem_cons_of_mem _ (ih h).1, (ih h).2⟩
  | bridge q child rest ihc ih =>
    rw [Host.Tree.findSub] at h
    split at h
    · rename_i x hx
      cases h
      exact ⟨List.mem_cons_of_mem _ (List.mem_append_left _ (devices_all _ (List.mem_of_find?_eq_some hx))), by simpa using List.find?_some hx⟩
    · split at h
      · rename_i x hx
        cases h
        exact ⟨List.mem_cons_of_mem _ (List.mem_append_left _ (ihc hx).1), (ihc hx).2⟩
      · exact ⟨List.mem_cons_of_mem _ (List.mem_append_right _ (ih h).1), (ih h).2⟩

theorem Host.Tree.find_some {t : Host.Tree} {id : PcieId} {p : Host.Device} (h : t.find id = some p) : p ∈ t.all ∧ p.id = id := by
  rw [Host.Tree.find] at h
  split at h
  · rename_i x hx
    cases h
    exact ⟨devices_all _ (List.mem_of_find?_eq_some hx), by simpa using List.find?_some hx⟩
  · exact findSub_some h

theorem Host.Tree.find_none {t : Host.Tree} {id : PcieId} : ∀ p ∈ t.all, p.id = id → (∃ q ∈ t.devices, q.id = id) ∨ t.findSub id ≠ none := by
  induction t with
  | nil => intro p h; exact nomatch h
  | fn q rest ih =>
    intro p h hp
    rcases List.mem_cons.1 h with rfl | h
    · exact .inl ⟨_, List.mem_cons_self, hp⟩
    · rcases ih p h hp with ⟨q', h1, h2⟩ | h1
      · exact .inl ⟨q', List.mem_cons_of_mem _ h1, h2⟩
      · exact .inr h1
  | bridge q child rest ihc ih =>
    intro p h hp
    rcases List.mem_cons.1 h with rfl | h
    · exact .inl ⟨_, List.mem_cons_self, hp⟩
    · rcases List.mem_append.1 h with h | h
      · refine .inr ?_
        rw [Host.Tree.findSub]
        split
        · simp
        · rename_i hx
          rcases ihc p h hp with ⟨q', h1, h2⟩ | h1
          · exact absurd h2 (by simpa using List.find?_eq_none.1 hx q' h1)
          · split
            · simp
            · rename_i hx; exact absurd hx h1
      · rcases ih p h hp with ⟨q', h1, h2⟩ | h1
        · exact .inl ⟨q', List.mem_cons_of_mem _ h1, h2⟩
        · refine .inr ?_
          rw [Host.Tree.findSub]
          split
          · simp
          · split
            · simp
            · exact h1

theorem knows_all {m : Nat} {b : Phys σ} {t : Host.Tree} (h : Knows m b t) : (∀ p ∈ t.all, ∃ x, On m b p.id.bus (p.id.device, p.id.function, x) ∧ Describes p.id x p ∧ Located x p) ∧
    ∀ k e, On m b k e → ∃ p ∈ t.all, p.id = ⟨k, e.1, e.2.1⟩ := by
  induction h with
  | nil => exact And.intro (fun p h => nomatch h) (fun k e h => (on_nil h).elim)
  | fn h1 h2 h3 _ ih =>
    refine ⟨fun p hp => ?_, fun k e he => ?_⟩
    · rcases List.mem_cons.1 hp with rfl | hp
      · rw [h1.id]
        exact ⟨_, on_ep.2 (.inl ⟨rfl, rfl⟩), h1, _, _, h2, h3⟩
      · obtain ⟨x, q1, q2⟩ := ih.1 p hp
        exact ⟨x, on_ep.2 (.inr q1), q2⟩
    · rcases on_ep.1 he with ⟨rfl, rfl⟩ | he
      · exact ⟨_, List.mem_cons_self, h1.id⟩
      · obtain ⟨p, q1, q2⟩ := ih.2 k e he
        exact ⟨p, List.mem_cons_of_mem _ q1, q2⟩
  | bridge h1 h2 h3 _ _ ihc ih =>
    refine ⟨fun p hp => ?_, fun k e he => ?_⟩
    · rcases List.mem_cons.1 hp with rfl | hp
      · rw [h1.id]
        exact ⟨_, on_br.2 (.inl ⟨rfl, rfl⟩), h1, _, _, h2, h3⟩
      · rcases List.mem_append.1 hp with hp | hp
        · obtain ⟨x, q1, q2⟩ := ihc.1 p hp
          exact ⟨x, on_br.2 (.inr (.inl q1)), q2⟩
        · obtain ⟨x, q1, q2⟩ := ih.1 p hp
          exact ⟨x, on_br.2 (.inr (.inr q1)), q2⟩
    · rcases on_br.1 he with ⟨rfl, rfl⟩ | he | he
      · exact ⟨_, List.mem_cons_self, h1.id⟩
      · obtain ⟨p, q1, q2⟩ := ihc.2 k e he
        exact ⟨p, List.mem_cons_of_mem _ (List.mem_append_left _ q1), q2⟩
      · obtain ⟨p, q1, q2⟩ := ih.2 k e he
        exact ⟨p, List.mem_cons_of_mem _ (List.mem_append_right _ q1), q2⟩

end Pcie
