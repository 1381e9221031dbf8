/- After the scan every function has taken its number. -/
import Verif.Lemmas.CfgFabricScan
namespace Pcie
open Spec Phys
variable {σ : Type}

theorem idsBelow_gt {last : Nat} {b : Phys σ} : ∀ id ∈ idsBelow last b, last < id.bus := by
  induction b generalizing last with
  | nil => intro id h; exact nomatch h
  | ep d fn f rest ih => intro id h; exact ih id h
  | br d fn dsp f child rest ihc ih =>
    intro id h
    rw [idsBelow] at h
    rcases List.mem_append.1 h with h | h
    · rcases List.mem_append.1 h with h | h
      · obtain ⟨e, -, rfl⟩ := List.mem_map.1 h
        simp only
        omega
      · have := ihc id h; omega
    · have := ih id h; omega

theorem fns_numbered {m last bus : Nat} {fns : List (EpFn σ)} {b : Phys σ} (he : (Node.dev bus fns).bus = numbered m last b)
    (hs : (top b).Pairwise Before) (h : ∀ id ∈ idsTop m b, (Node.dev bus fns).idAt true id = some id) :
    ∀ f ∈ fns, f.id.bus = m ∧ f.id.bus = bus := by
  have key : ∀ (fns : List (EpFn σ)) (b : Phys σ), (Node.dev bus fns).bus = numbered m last b → (top b).Pairwise Before →
      ∀ f ∈ fns, (⟨m, f.id.device, f.id.function⟩ : PcieId) ∈ idsTop m b ∧
        fns.find? (fun g => takes true g.id ⟨m, f.id.device, f.id.function⟩) = some f := by
    intro fns
    induction fns with
    | nil => intro b _ _ f hf; exact nomatch hf
    | cons g fns ih =>
      intro b he hs f hf
      cases b with
      | nil => simp [Node.bus, numbered] at he
      | br d fn dsp f child rest => simp [Node.bus, numbered] at he
      | ep d fn x rest =>
        simp only [Node.bus, List.foldr_cons, numbered, Phys.ep.injEq] at he
        obtain ⟨rfl, rfl, rfl, he⟩ := he
        have hs' := List.pairwise_cons.1 hs
        have ih := ih rest (by simpa only [Node.bus] using he) hs'.2
        rcases List.mem_cons.1 hf with rfl | hf
        · refine ⟨by simp [idsTop, top], ?_⟩
          rw [List.find?_cons_of_pos]
          simp [takes]
        · obtain ⟨i1, i2⟩ := ih f hf
          refine ⟨by simp only [idsTop, top, List.map_cons]; exact List.mem_cons_of_mem _ i1, ?_⟩
          rw [List.find?_cons_of_neg, i2]
          obtain ⟨e, he', hid⟩ := List.mem_map.1 i1
          have := hs'.1 e he'
          simp only [PcieId.mk.injEq, true_and] at hid
          simp only [Before] at this
          simp only [takes, true_and, decide_eq_true_eq]
          omega
  intro f hf
  obtain ⟨k1, k2⟩ := key fns b he hs f hf
  have h := h _ k1
  rw [Node.idAt, k2] at h
  simp only [Option.bind_some] at h
  split at h
  · rename_i hb
    have := congrArg PcieId.bus (Option.some.inj h)
    exact ⟨this, hb⟩
  · cases h

/-- The functions on the buses behind the bridges are listed in order. -/
def SortedBelow : Phys σ → Prop
  | .nil => True
  | .ep _ _ _ rest => SortedBelow rest
  | .br _ _ _ _ child rest => (top child).Pairwise Before ∧ SortedBelow child ∧ SortedBelow rest

theorem sortedBelow_of {b : Phys σ} (h : BusesOk b) : SortedBelow b := by
  induction b with
  | nil => trivial
  | ep d fn f rest ih => exact ih h
  | br d fn dsp f child rest ihc ih => exact ⟨h.1.sorted, ihc h.2.1, ih h.2.2⟩

mutual
theorem Node.numbered_of : ∀ (n : Node σ) (m last : Nat) (b : Phys σ), n.bus = numbered m last b → m ≤ last → 
    (top b).Pairwise Before → SortedBelow b → n.Filled →
    (∀ id ∈ idsTop m b, n.idAt true id = some id) → (∀ id ∈ idsBelow last b, n.idAt false id = some id) → n.Numbered m
  | .none, m, last, b, he, hm, hs, hb, hf, h1, h2 => by rw [Node.Numbered]; trivial
  | .dev bus fns, m, last, b, he, hm, hs, hb, hf, h1, h2 => by
    have h := fns_numbered he hs h1
    rw [Node.Numbered]
    rw [Node.Filled] at hf
    refine ⟨?_, fun f hf => (h f hf).1⟩
    cases fns with
    | nil => exact absurd rfl hf
    | cons f fns =>
      have := h f List.mem_cons_self
      omega
  | .sw up ports, m, last, b, he, hm, hs, hb, hf, h1, h2 => by
    rw [Node.Filled] at hf
    rw [Node.bus] at he
    cases b with
    | nil => simp [numbered] at he
    | ep d fn x rest => simp [numbered] at he
    | br d fn dsp f child rest =>
      simp only [numbered, Phys.br.injEq] at he
      obtain ⟨rfl, rfl, -, hup, hc, -⟩ := he
      have hsec : up.secBus = last + 1 := congrArg Br.secBus hup
      have hsub : up.subBus = last + 1 + bridges child := congrArg Br.subBus hup
      have t1 := h1 ⟨m, up.id.device, up.id.function⟩ (by simp [idsTop, top])
      rw [Node.idAt, if_pos (show takes true up.id ⟨m, up.id.device, up.id.function⟩ from ⟨rfl, rfl, rfl⟩)] at t1
      rw [Node.Numbered]
      refine ⟨congrArg PcieId.bus (Option.some.inj t1), ?_⟩
      rw [hsec]
      have hin : ∀ id ∈ idsTop (last + 1) child ++ idsBelow (last + 1) child, ports.idAt (id.bus = last + 1) id = some id := by
        intro id hid
        have t2 := h2 id (by rw [idsBelow]; exact List.mem_append_left _ hid)
        have hr : last + 1 ≤ id.bus ∧ id.bus ≤ last + 1 + bridges child := by
          rcases List.mem_append.1 hid with h | h
          · obtain ⟨e, -, rfl⟩ := List.mem_map.1 h
            simp only
            omega
          · exact ⟨Nat.le_of_lt (idsBelow_gt id h), idsBelow_le id h⟩
        rw [Node.idAt, if_neg (fun h => by have := h.1; cases this), if_pos, hsec] at t2
        · exact t2
        · refine ⟨rfl, ?_⟩
          simp only [behind, hsec, hsub, decide_eq_true_eq]
          refine ⟨hr.1, hr.2, fun e => ?_⟩
          rw [e] at hr
          simp only at hr
          omega
      refine Ports.numbered_of ports (last + 1) (last + 1) child hc (Nat.le_refl _) hb.1 hb.2.1 hf ?_ ?_
      · intro id hid
        have := hin id (List.mem_append_left _ hid)
        obtain ⟨e, -, rfl⟩ := List.mem_map.1 hid
        simpa using this
      · intro id hid
        have := hin id (List.mem_append_right _ hid)
        have hgt := idsBelow_gt id hid
        rw [decide_eq_false (by omega)] at this
        exact this
theorem Ports.numbered_of : ∀ (p : Ports σ) (m last : Nat) (b : Phys σ), p.bus = numbered m last b → m ≤ last → 
    (top b).Pairwise Before → SortedBelow b → p.Filled →
    (∀ id ∈ idsTop m b, p.idAt true id = some id) → (∀ id ∈ idsBelow last b, p.idAt false id = some id) → p.Numbered m
  | .nil, m, last, b, he, hm, hs, hb, hf, h1, h2 => by rw [Ports.Numbered]; trivial
  | .cons p n rest, m, last, b, he, hm, hs, hb, hf, h1, h2 => by
    rw [Ports.Filled] at hf
    rw [Ports.bus] at he
    cases b with
    | nil => simp [numbered] at he
    | ep d fn x rest => simp [numbered] at he
    | br d fn dsp f child brest =>
      simp only [numbered, Phys.br.injEq] at he
      obtain ⟨rfl, rfl, -, hup, hc, hrest⟩ := he
      have hsec : p.secBus = last + 1 := congrArg Br.secBus hup
      have hsub : p.subBus = last + 1 + bridges child := congrArg Br.subBus hup
      have hs' := List.pairwise_cons.1 hs
      have t1 := h1 ⟨m, p.id.device, p.id.function⟩ (by simp [idsTop, top])
      rw [Ports.idAt, if_pos (show takes true p.id ⟨m, p.id.device, p.id.function⟩ from ⟨rfl, rfl, rfl⟩)] at t1
      rw [Ports.Numbered]
      refine ⟨congrArg PcieId.bus (Option.some.inj t1), ?_, ?_⟩
      · rw [hsec]
        have hin : ∀ id ∈ idsTop (last + 1) child ++ idsBelow (last + 1) child, n.idAt (id.bus = last + 1) id = some id := by
          intro id hid
          have t2 := h2 id (by rw [idsBelow]; exact List.mem_append_left _ hid)
          have hr : last + 1 ≤ id.bus ∧ id.bus ≤ last + 1 + bridges child := by
            rcases List.mem_append.1 hid with h | h
            · obtain ⟨e, -, rfl⟩ := List.mem_map.1 h
              simp only
              omega
            · exact ⟨Nat.le_of_lt (idsBelow_gt id h), idsBelow_le id h⟩
          rw [Ports.idAt, if_neg (fun h => by have := h.1; cases this), if_pos, hsec] at t2
          · exact t2
          · refine ⟨rfl, ?_⟩
            simp only [behind, hsec, hsub, decide_eq_true_eq]
            refine ⟨hr.1, hr.2, fun e => ?_⟩
            rw [e] at hr
            simp only at hr
            omega
        refine Node.numbered_of n (last + 1) (last + 1) child hc (Nat.le_refl _) hb.1 hb.2.1 hf.1 ?_ ?_
        · intro id hid
          have := hin id (List.mem_append_left _ hid)
          obtain ⟨e, -, rfl⟩ := List.mem_map.1 hid
          simpa using this
        · intro id hid
          have := hin id (List.mem_append_right _ hid)
          have hgt := idsBelow_gt id hid
          rw [decide_eq_false (by omega)] at this
          exact this
      · refine Ports.numbered_of rest m (last + 1 + bridges child) brest hrest (by omega) hs'.2 hb.2.2 hf.2 ?_ ?_
        · intro id hid
          have t2 := h1 id (by simp only [idsTop, top, List.map_cons]; exact List.mem_cons_of_mem _ hid)
          rw [Ports.idAt, if_neg, if_neg (fun h => by have := h.1; cases this)] at t2
          · exact t2
          · obtain ⟨e, he', rfl⟩ := List.mem_map.1 hid
            have := hs'.1 e he'
            simp only [Before] at this
            simp only [takes, true_and]
            omega
        · intro id hid
          have t2 := h2 id (by rw [idsBelow]; exact List.mem_append_right _ hid)
          have hgt := idsBelow_gt id hid
          rw [Ports.idAt, if_neg (fun h => by have := h.1; cases this), if_neg] at t2
          · exact t2
          · simp only [behind, hsec, hsub, decide_eq_true_eq]
            omega
end

mutual
theorem Node.filled_same : ∀ (n : Node σ) {n' : Node σ}, n.same n' → n.Filled → n'.Filled
  | .none, n', h, hf => by rw [Node.same] at h; subst h; exact hf
  | .dev _ fns, n', h, hf => by
    rw [Node.same] at h
    obtain ⟨bus', fns', rfl, hl, -⟩ := h
    rw [Node.Filled] at hf ⊢
    intro e
    rw [e] at hl
    exact hf (List.length_eq_zero_iff.1 hl.symm)
  | .sw _ ports, n', h, hf => by
    rw [Node.same] at h
    obtain ⟨up', ports', rfl, -, hp⟩ := h
    rw [Node.Filled] at hf ⊢
    exact Ports.filled_same ports hp hf
theorem Ports.filled_same : ∀ (p : Ports σ) {p' : Ports σ}, p.same p' → p.Filled → p'.Filled
  | .nil, p', h, hf => by rw [Ports.same] at h; subst h; exact hf
  | .cons _ n rest, p', h, hf => by
    rw [Ports.same] at h
    obtain ⟨b', n', rest', rfl, -, hn, hr⟩ := h
    rw [Ports.Filled] at hf ⊢
    exact ⟨Node.filled_same n hn hf.1, Ports.filled_same rest hr hf.2⟩
end

theorem fns_setup {m bus : Nat} : ∀ {fns fns' : List (EpFn σ)}, fnsSame fns fns' → (∀ f ∈ fns', f.id.bus = m) →
    setupFns m fns (Node.dev bus fns').bus = fns'
  | [], fns', h, _ => by
    have := List.length_eq_zero_iff.1 h.1
    subst this; rfl
  | f :: fns, [], h, _ => by cases h.1
  | f :: fns, f' :: fns', h, hm => by
    have ih := fns_setup (bus := bus) (m := m) (fns := fns) (fns' := fns')
      ⟨by simpa using h.1, fun i a b ha hb => h.2 (i + 1) a b ha hb⟩ (fun g hg => hm g (List.mem_cons_of_mem _ hg))
    obtain ⟨s1, s2, s3⟩ := h.2 0 f f' rfl rfl
    have s4 := hm f' List.mem_cons_self
    simp only [Node.bus, List.foldr_cons, setupFns] at ih ⊢
    rw [ih]
    obtain ⟨fe, ⟨fb, fd, ff⟩, fh⟩ := f
    obtain ⟨ge, ⟨gb, gd, gf⟩, gh⟩ := f'
    simp only at s1 s2 s3 s4
    subst s1 s2 s3 s4
    rfl

mutual
theorem Node.setup_of : ∀ (n : Node σ) (m : Nat) {n' : Node σ}, n.same n' → n'.Numbered m → n.setup m n'.bus = n'
  | .none, m, n', h, hn => by rw [Node.same] at h; subst h; rfl
  | .dev _ fns, m, n', h, hn => by
    rw [Node.same] at h
    obtain ⟨bus', fns', rfl, h⟩ := h
    rw [Node.Numbered] at hn
    rw [Node.setup, fns_setup h hn.2, hn.1]
  | .sw up ports, m, n', h, hn => by
    rw [Node.same] at h
    obtain ⟨up', ports', rfl, ⟨s1, s2, s3, s4⟩, hp⟩ := h
    rw [Node.Numbered] at hn
    rw [Node.bus, Node.setup, Ports.setup_of ports up'.secBus hp hn.2]
    have s5 := hn.1
    obtain ⟨fe, ⟨fb, fd, ff⟩, fr, fh⟩ := up
    obtain ⟨ge, ⟨gb, gd, gf⟩, gr, gh⟩ := up'
    simp only at s1 s2 s3 s4 s5
    subst s1 s2 s3 s4 s5
    rfl
theorem Ports.setup_of : ∀ (p : Ports σ) (m : Nat) {p' : Ports σ}, p.same p' → p'.Numbered m → p.setup m p'.bus = p'
  | .nil, m, p', h, hn => by rw [Ports.same] at h; subst h; rfl
  | .cons b n rest, m, p', h, hn => by
    rw [Ports.same] at h
    obtain ⟨b', n', rest', rfl, ⟨s1, s2, s3, s4⟩, hn', hr⟩ := h
    rw [Ports.Numbered] at hn
    rw [Ports.bus, Ports.setup, Node.setup_of n b'.secBus hn' hn.2.1, Ports.setup_of rest m hr hn.2.2]
    have s5 := hn.1
    obtain ⟨fe, ⟨fb, fd, ff⟩, fr, fh⟩ := b
    obtain ⟨ge, ⟨gb, gd, gf⟩, gr, gh⟩ := b'
    simp only at s1 s2 s3 s4 s5
    subst s1 s2 s3 s4 s5
    rfl
end

/-- The scan from bus 0. -/
theorem node_scanRoot (ops : CapOps σ) (tag : Tlp → Nat) {host : BrFn σ} {ports : Ports σ} (hh : CfgHost host) (hp : CfgPorts ports)
    (ho : BusOk true false (top ports.bus)) (hb : BusesOk ports.bus) (hf : NoNumbers ports.bus)
    (hk : bridges ports.bus ≤ 255) {fuel : Nat} (hd : depth ports.bus < fuel) :
    ∃ ports', Node.scan ops tag fuel (.sw host ports) 0 false =
        .ok (.sw host ports', bridges ports.bus, idsTop 0 ports.bus ++ idsBelow 0 ports.bus) ∧
      CfgPorts ports' ∧ ports'.bus = numbered 0 0 ports.bus ∧ ports.same ports' ∧ (ports.Filled → ports'.Numbered 0) := by
  obtain ⟨ports', h1, h2, h3, h4, h5, h6⟩ := node_scan ops tag hh fuel [] 0 ports.bus false rfl (by simpa using ho) hb hf hd (by omega) hp rfl
  rw [Nat.zero_add] at h1
  refine ⟨ports', h1, h3, h2, h4, fun hfill => ?_⟩
  refine Ports.numbered_of ports' 0 0 ports.bus h2 (Nat.le_refl _) ho.sorted (sortedBelow_of hb) (Ports.filled_same ports h4 hfill) ?_ ?_
  · intro id hid
    have := h6 id (List.mem_append_left _ hid)
    obtain ⟨e, -, rfl⟩ := List.mem_map.1 hid
    exact this
  · intro id hid
    have := h6 id (List.mem_append_right _ hid)
    have hgt := idsBelow_gt id hid
    unfold Right at this
    rw [decide_eq_false (by omega)] at this
    exact this

end Pcie
