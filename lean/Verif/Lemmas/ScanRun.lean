/- The scan of a whole hierarchy: what it does to the bus number registers, and what it finds. -/
import Verif.Lemmas.Scan
namespace Pcie
open Spec Phys
variable {σ : Type}

/-- The hierarchy as the scan of bus `n` leaves it, when the last bus number used so far is `last`. -/
def numbered : (n last : Nat) → Phys σ → Phys σ
  | _, _, .nil => .nil
  | n, last, .ep d fn f rest => .ep d fn f (numbered n last rest)
  | n, last, .br d fn dsp f child rest =>
    .br d fn dsp { f with priBus := n, secBus := last + 1, subBus := last + 1 + bridges child }
      (numbered (last + 1) (last + 1) child) (numbered n (last + 1 + bridges child) rest)

/-- The numbers of the functions on bus `n`. -/
def idsTop (n : Nat) (b : Phys σ) : List PcieId := (top b).map fun e => ⟨n, e.1, e.2.1⟩

/-- The numbers of the functions behind the bridges. -/
def idsBelow : (last : Nat) → Phys σ → List PcieId
  | _, .nil => []
  | last, .ep _ _ _ rest => idsBelow last rest
  | last, .br _ _ _ _ child rest =>
    (idsTop (last + 1) child ++ idsBelow (last + 1) child) ++ idsBelow (last + 1 + bridges child) rest

theorem buses_fields (old p s u : Nat) (hp : p < 256) (hs : s < 256) (hu : u < 256) :
    busesReg old p s u &&& 0xff = p ∧ busesReg old p s u >>> 8 &&& 0xff = s ∧ busesReg old p s u >>> 16 &&& 0xff = u ∧
      busesReg old p s u < 2 ^ 32 := by
  have e8 : (0xff : Nat) = 2 ^ 8 - 1 := rfl
  have e24 : (0xff000000 : Nat) = (2 ^ 8 - 1) <<< 24 := rfl
  have tp : ∀ i, 8 ≤ i → p.testBit i = false := fun i hi =>
    Nat.testBit_lt_two_pow (Nat.lt_of_lt_of_le hp (Nat.pow_le_pow_right (n := 2) (i := 8) (j := i) (by omega) hi))
  have ts : ∀ i, 8 ≤ i → s.testBit i = false := fun i hi =>
    Nat.testBit_lt_two_pow (Nat.lt_of_lt_of_le hs (Nat.pow_le_pow_right (n := 2) (i := 8) (j := i) (by omega) hi))
  have tu : ∀ i, 8 ≤ i → u.testBit i = false := fun i hi =>
    Nat.testBit_lt_two_pow (Nat.lt_of_lt_of_le hu (Nat.pow_le_pow_right (n := 2) (i := 8) (j := i) (by omega) hi))
  have tb : ∀ i, (busesReg old p s u).testBit i = ((old.testBit i && (decide (24 ≤ i) && decide (i - 24 < 8))) || p.testBit i ||
      (decide (8 ≤ i) && s.testBit (i - 8)) || (decide (16 ≤ i) && u.testBit (i - 16))) := by
    intro i
    rw [busesReg, e24]
    simp only [Nat.testBit_or, Nat.testBit_and, Nat.testBit_shiftLeft, Nat.testBit_two_pow_sub_one]
    simp
  refine ⟨?_, ?_, ?_, ?_⟩
  · apply Nat.eq_of_testBit_eq; intro i
    rw [Nat.testBit_and, e8, Nat.testBit_two_pow_sub_one, tb]
    by_cases h : i < 8
    · simp [h, show ¬ 24 ≤ i by omega, show ¬ 8 ≤ i by omega, show ¬ 16 ≤ i by omega]
    · simp [h, tp i (by omega)]
  · apply Nat.eq_of_testBit_eq; intro i
    rw [Nat.testBit_and, Nat.testBit_shiftRight, e8, Nat.testBit_two_pow_sub_one, tb]
    by_cases h : i < 8
    · simp [h, show ¬ 24 ≤ 8 + i by omega, show ¬ 16 ≤ 8 + i by omega, tp (8 + i) (by omega)]
    · simp [h, ts i (by omega)]
  · apply Nat.eq_of_testBit_eq; intro i
    rw [Nat.testBit_and, Nat.testBit_shiftRight, e8, Nat.testBit_two_pow_sub_one, tb]
    by_cases h : i < 8
    · simp [h, show ¬ 24 ≤ 16 + i by omega, show 8 ≤ 16 + i by omega, tp (16 + i) (by omega), ts (16 + i - 8) (by omega)]
    · simp [h, tu i (by omega)]
  · apply Nat.lt_pow_two_of_testBit; intro i hi
    rw [tb, tp i (by omega), ts (i - 8) (by omega), tu (i - 16) (by omega)]
    simp; intro _ _; omega

theorem write_buses (ops : CapOps σ) (f : Br σ) (old p s u : Nat) (hp : p < 256) (hs : s < 256) (hu : u < 256) :
    f.write ops 6 (busesReg old p s u) 0xf = { f with priBus := p, secBus := s, subBus := u } := by
  obtain ⟨h1, h2, h3, _⟩ := buses_fields old p s u hp hs hu
  simp only [Br.write, show ¬ ((6 : Nat) = 4) by decide, show ¬ ((6 : Nat) = 5) by decide, if_false, if_true, Br.writeBus,
    h1, h2, h3]
  rfl

theorem write_nokey (ops : CapOps σ) (reg v : Nat) (b : Phys σ) (id : PcieId)
    (h : ∀ e ∈ top b, ¬ (e.1 = id.device ∧ e.2.1 = id.function)) : b.write ops reg v true id = b := by
  induction b with
  | nil => rfl
  | ep d fn f rest ih =>
    have h0 := h (d, fn, .ep f) (by simp [top])
    simp only at h0
    simp only [write, true_and, if_neg h0]
    rw [ih (fun e he => h e (by simp [top, he]))]
  | br d fn dsp f child rest _ ih =>
    have h0 := h (d, fn, .br dsp f) (by simp [top])
    simp only at h0
    simp only [write, true_and, if_neg h0]
    rw [ih (fun e he => h e (by simp [top, he]))]
    simp

/-- Writing the bus numbers of a bridge on bus `n`. -/
theorem write_local (ops : CapOps σ) {C : List (Frame σ)} {n : Nat} (hC : CtxOk C n) (hn : n ≤ 255) (L : Phys σ) (d fn : Nat)
    (dsp : Bool) (f : Br σ) (child rest : Phys σ) (hs : (top (L.app (.br d fn dsp f child rest))).Pairwise Before)
    (old p s u : Nat) (hp : p < 256) (hs' : s < 256) (hu : u < 256) :
    cfgWrite ops (plug C (L.app (.br d fn dsp f child rest))) ⟨n, d, fn⟩ 6 (busesReg old p s u) =
      .ok (plug C (L.app (.br d fn dsp { f with priBus := p, secBus := s, subBus := u } child rest))) := by
  obtain ⟨hr, hc⟩ := reach_plug hC (L.app (.br d fn dsp f child rest)) hn d fn
  rw [filter_key hs (show (d, fn, Fn.br dsp f) ∈ _ by rw [top_app]; simp [top])] at hr hc
  rw [cfgWrite, if_pos (buses_fields old p s u hp hs' hu).2.2.2]
  simp only [hr, hc (Nat.le_refl _), if_true, List.map_cons, List.map_nil]
  have hw := plug_write ops 6 (busesReg old p s u) hC (L.app (.br d fn dsp f child rest)) ⟨n, d, fn⟩ (Nat.le_refl _) hn
  simp only [decide_true] at hw
  rw [hw, write_app]
  rw [top_app, List.pairwise_append] at hs
  obtain ⟨_, h2, h3⟩ := hs
  rw [top, List.pairwise_cons] at h2
  rw [write_nokey ops _ _ L]
  · simp only [write, and_self, if_true, write_buses ops f old p s u hp hs' hu]
    rw [write_nokey ops _ _ rest]
    · simp
    · intro e he h
      have := h2.1 e he
      simp [Before] at this h; omega
  · intro e he h
    have := h3 e he (d, fn, .br dsp f) (by simp [top])
    simp [Before] at this h; omega

/-- The list of numbers and kinds of functions does not depend on bus numbers. -/
theorem pairwise_map {es es' : List (Nat × Nat × Fn σ)} (h : es.map (fun e => (e.1, e.2.1)) = es'.map (fun e => (e.1, e.2.1)))
    (hs : es.Pairwise Before) : es'.Pairwise Before := by
  have h1 : (es.map (fun e => (e.1, e.2.1))).Pairwise (fun a b => a.1 < b.1 ∨ a.1 = b.1 ∧ a.2 < b.2) := by
    rw [List.pairwise_map]; exact hs
  rw [h, List.pairwise_map] at h1
  exact h1

theorem numbered_nil (n last : Nat) : numbered n last (.nil : Phys σ) = .nil := rfl

theorem scanBridges_spec (ops : CapOps σ) (fuel : Nat)
    (ih : ∀ (C : List (Frame σ)) (n : Nat) (b : Phys σ) (one : Bool), CtxOk C n → BusOk (n = 0) one (top b) → BusesOk b → NoNumbers b →
      depth b < fuel → n + bridges b ≤ 255 →
      scan ops fuel (plug C b) n one = .ok (plug C (numbered n n b), n + bridges b, idsTop n b ++ idsBelow n b))
    {C : List (Frame σ)} {n : Nat} (hC : CtxOk C n) :
    ∀ (R L : Phys σ) (last : Nat), n ≤ last → Below (last + 1) L → (top (L.app R)).Pairwise Before → BusesOk R → NoNumbers R →
      depth R ≤ fuel → last + bridges R ≤ 255 →
      scanBridges ops (scan ops fuel) n ((top R).map (foundOf n)) (plug C (L.app R)) last =
        .ok (plug C (L.app (numbered n last R)), last + bridges R, idsBelow last R) := by
  intro R
  induction R with
  | nil => intros; rfl
  | ep d fn f rest ihR =>
    intro L last hnl hL hs hb hf hd hk
    simp only [top, List.map_cons, scanBridges, foundOf, Bool.false_eq_true, if_false]
    have := ihR (L.app (.ep d fn f .nil)) last hnl (by intro p hp; rw [brsOf_app] at hp; simp [brsOf] at hp; exact hL p hp)
      (by rw [app_assoc]; exact hs) hb hf hd hk
    rw [app_assoc, app_assoc] at this
    exact this
  | br d fn dsp f child rest _ ihR =>
    intro L last hnl hL hs hb hf hd hk
    obtain ⟨hb1, hb2, hb3⟩ := hb
    obtain ⟨hf1, hf2, hf3⟩ := hf
    simp only [depth, bridges] at hd hk
    have hn : n ≤ 255 := by omega
    have hkey : (d, fn, Fn.br dsp f) ∈ top (L.app (.br d fn dsp f child rest)) := by rw [top_app]; simp [top]
    have hread := reach_read ops (reach_plug hC (L.app (.br d fn dsp f child rest)) hn) hs hkey 6 (read_buses_lt ops dsp f)
    simp only [top, List.map_cons, scanBridges, foundOf, if_true]
    rw [hread, ok_bind, write_local ops hC hn L d fn dsp f child rest hs _ n (last + 1) 0xff (by omega) (by omega) (by omega), ok_bind]
    -- the scan of the secondary bus
    have hCh : CtxOk (⟨L, d, fn, dsp, { f with priBus := n, secBus := last + 1, subBus := 0xff }, rest⟩ :: C) (last + 1) := by
      refine ⟨n, hC, by omega, rfl, rfl, hL, ?_⟩
      intro p hp
      have : ∀ (r : Phys σ), NoNumbers r → ∀ p ∈ brsOf r, p.1.subBus = 0 := by
        intro r
        induction r with
        | nil => intro _ p hp; simp [brsOf] at hp
        | ep d fn f rest ih => intro hr p hp; exact ih hr p hp
        | br d fn dsp f child rest _ ih =>
          intro hr p hp
          rcases List.mem_cons.1 hp with h | h
          · rw [h]; exact hr.1
          · exact ih hr.2.2 p h
      rw [this rest hf3 p hp]; omega
    have hch := ih _ (last + 1) child dsp hCh (by simpa using hb1) hb2 hf2 (by omega) (by omega)
    simp only [plug] at hch
    rw [hch, ok_bind]
    -- the second write
    have hs2 : (top (L.app (.br d fn dsp { f with priBus := n, secBus := last + 1, subBus := 0xff }
        (numbered (last + 1) (last + 1) child) rest))).Pairwise Before := by
      apply pairwise_map _ hs
      rw [top_app, top_app]; simp [top]
    simp only []
    rw [write_local ops hC hn L d fn dsp _ _ rest hs2 _ n (last + 1) (last + 1 + bridges child) (by omega) (by omega) (by omega), ok_bind]
    -- the other bridges
    have hstep := ihR (L.app (.br d fn dsp { f with priBus := n, secBus := last + 1, subBus := last + 1 + bridges child }
      (numbered (last + 1) (last + 1) child) .nil)) (last + 1 + bridges child) (by omega)
      (by
        intro p hp
        rw [brsOf_app] at hp
        rcases List.mem_append.1 hp with h | h
        · have := hL p h; omega
        · simp [brsOf] at h; rw [h]; simp)
      (by
        apply pairwise_map _ hs
        rw [app_assoc, top_app, top_app]; simp [top, app])
      hb3 hf3 (by omega) (by omega)
    rw [app_assoc, app_assoc] at hstep
    simp only [app] at hstep
    rw [hstep, ok_bind]
    simp only [numbered, idsBelow, bridges, Nat.add_assoc]
    rfl

theorem scan_spec (ops : CapOps σ) : ∀ (fuel : Nat) (C : List (Frame σ)) (n : Nat) (b : Phys σ) (one : Bool), CtxOk C n →
    BusOk (n = 0) one (top b) → BusesOk b → NoNumbers b → depth b < fuel → n + bridges b ≤ 255 →
    scan ops fuel (plug C b) n one = .ok (plug C (numbered n n b), n + bridges b, idsTop n b ++ idsBelow n b) := by
  intro fuel
  induction fuel with
  | zero => intros; omega
  | succ fuel ih =>
    intro C n b one hC ho hb hf hd hk
    rw [scan, probe_spec ops (reach_plug hC b (by omega)) (by omega) ho, ok_bind]
    have := scanBridges_spec ops fuel ih hC b .nil n (Nat.le_refl _) (by intro p hp; simp [brsOf] at hp)
      ho.sorted hb hf (by omega) hk
    simp only [app] at this
    rw [this, ok_bind]
    simp only [idsTop, List.map_map]
    rfl

end Pcie
