/- Facts about a numbered hierarchy; too many buses. -/
import Verif.Lemmas.ScanRun
namespace Pcie
open Spec Phys
variable {σ : Type}

theorem fresh_brs {r : Phys σ} (hr : NoNumbers r) : ∀ p ∈ brsOf r, p.1.subBus = 0 := by
  induction r with
  | nil => intro p hp; simp [brsOf] at hp
  | ep d fn f rest ih => intro p hp; exact ih hr p hp
  | br d fn dsp f child rest _ ih =>
    intro p hp
    rcases List.mem_cons.1 hp with h | h
    · rw [h]; exact hr.1
    · exact ih hr.2.2 p h

theorem scan_range (ops : CapOps σ) (fuel : Nat) (t : Phys σ) (n : Nat) (one : Bool) (hn : 255 < n) :
    ∃ e, scan ops fuel t n one = .error e := by
  cases fuel with
  | zero => exact ⟨_, rfl⟩
  | succ fuel =>
    refine ⟨"ValueError", ?_⟩
    have h : (List.range 32) = 0 :: List.range' 1 31 := by decide
    have h0 : ¬ (n = 0 ∧ True) := by omega
    simp only [scan, h, probeDevs, if_neg h0, if_pos hn, error_bind]

theorem scanBridges_err (ops : CapOps σ) (fuel : Nat)
    (ih : ∀ (C : List (Frame σ)) (n : Nat) (b : Phys σ) (one : Bool), CtxOk C n → BusOk (n = 0) one (top b) → BusesOk b → NoNumbers b →
      depth b < fuel → n ≤ 255 → 255 < n + bridges b → ∃ e, scan ops fuel (plug C b) n one = .error e)
    {C : List (Frame σ)} {n : Nat} (hC : CtxOk C n) :
    ∀ (R L : Phys σ) (last : Nat), n ≤ last → last ≤ 255 → Below (last + 1) L → (top (L.app R)).Pairwise Before → BusesOk R →
      NoNumbers R → depth R ≤ fuel → 255 < last + bridges R →
      ∃ e, scanBridges ops (scan ops fuel) n ((top R).map (foundOf n)) (plug C (L.app R)) last = .error e := by
  intro R
  induction R with
  | nil => intro L last _ h1 _ _ _ _ _ h2; simp only [bridges] at h2; omega
  | ep d fn f rest ihR =>
    intro L last hnl hl hL hs hb hf hd hk
    simp only [top, List.map_cons, scanBridges, foundOf, Bool.false_eq_true, if_false]
    have := ihR (L.app (.ep d fn f .nil)) last hnl hl (by intro p hp; rw [brsOf_app] at hp; simp [brsOf] at hp; exact hL p hp)
      (by rw [app_assoc]; exact hs) hb hf hd hk
    rw [app_assoc] at this
    exact this
  | br d fn dsp f child rest _ ihR =>
    intro L last hnl hl hL hs hb hf hd hk
    obtain ⟨hb1, hb2, hb3⟩ := hb
    obtain ⟨hf1, hf2, hf3⟩ := hf
    simp only [depth, bridges] at hd hk
    have hn : n ≤ 255 := by omega
    have hkey : (d, fn, Fn.br dsp f) ∈ top (L.app (.br d fn dsp f child rest)) := by rw [top_app]; simp [top]
    have hread := reach_read ops (reach_plug hC (L.app (.br d fn dsp f child rest)) hn) hs hkey 6 (read_buses_lt ops dsp f)
    simp only [top, List.map_cons, scanBridges, foundOf, if_true]
    rw [hread, ok_bind]
    by_cases h255 : last + 1 ≤ 255
    · rw [write_local ops hC hn L d fn dsp f child rest hs _ n (last + 1) 0xff (by omega) (by omega) (by omega), ok_bind]
      have hCh : CtxOk (⟨L, d, fn, dsp, { f with priBus := n, secBus := last + 1, subBus := 0xff }, rest⟩ :: C) (last + 1) := by
        refine ⟨n, hC, by omega, rfl, rfl, hL, ?_⟩
        intro p hp
        rw [fresh_brs hf3 p hp]; omega
      by_cases hch : last + 1 + bridges child ≤ 255
      · have hch := scan_spec ops fuel _ (last + 1) child dsp hCh (by simpa using hb1) hb2 hf2 (by omega) (by omega)
        simp only [plug] at hch
        rw [hch, ok_bind]
        have hs2 : (top (L.app (.br d fn dsp { f with priBus := n, secBus := last + 1, subBus := 0xff }
            (numbered (last + 1) (last + 1) child) rest))).Pairwise Before := by
          apply pairwise_map _ hs
          rw [top_app, top_app]; simp [top]
        simp only []
        rw [write_local ops hC hn L d fn dsp _ _ rest hs2 _ n (last + 1) (last + 1 + bridges child) (by omega) (by omega) (by omega), ok_bind]
        obtain ⟨e, hstep⟩ := ihR (L.app (.br d fn dsp { f with priBus := n, secBus := last + 1, subBus := last + 1 + bridges child }
          (numbered (last + 1) (last + 1) child) .nil)) (last + 1 + bridges child) (by omega) (by omega)
          (by
            intro p hp
            rw [brsOf_app] at hp
            rcases List.mem_append.1 hp with h | h
            · have := hL p h; omega
            · simp [brsOf] at h; rw [h]; simp)
          (by
            apply pairwise_map _ hs
            rw [app_assoc, top_app, top_app]; simp [top, app])
          hb3 hf3 (by omega) (by omega)
        rw [app_assoc] at hstep
        simp only [app] at hstep
        refine ⟨e, ?_⟩
        rw [hstep, error_bind]
      · obtain ⟨e, hch⟩ := ih _ (last + 1) child dsp hCh (by simpa using hb1) hb2 hf2 (by omega) (by omega) (by omega)
        simp only [plug] at hch
        refine ⟨e, ?_⟩
        rw [hch, error_bind]
    · cases hw : cfgWrite ops (plug C (L.app (.br d fn dsp f child rest))) ⟨n, d, fn⟩ 6
        (busesReg ((Fn.br dsp f).read ops 6) n (last + 1) 0xff) with
      | error e => exact ⟨e, by rw [error_bind]⟩
      | ok t =>
        obtain ⟨e, he⟩ := scan_range ops fuel t (last + 1) dsp (by omega)
        refine ⟨e, ?_⟩
        rw [ok_bind, he, error_bind]

theorem scan_err (ops : CapOps σ) : ∀ (fuel : Nat) (C : List (Frame σ)) (n : Nat) (b : Phys σ) (one : Bool), CtxOk C n →
    BusOk (n = 0) one (top b) → BusesOk b → NoNumbers b → depth b < fuel → n ≤ 255 → 255 < n + bridges b →
    ∃ e, scan ops fuel (plug C b) n one = .error e := by
  intro fuel
  induction fuel with
  | zero => intros; omega
  | succ fuel ih =>
    intro C n b one hC ho hb hf hd hn hk
    rw [scan, probe_spec ops (reach_plug hC b (by omega)) (by omega) ho, ok_bind]
    obtain ⟨e, this⟩ := scanBridges_err ops fuel ih hC b .nil n (Nat.le_refl _) hn (by intro p hp; simp [brsOf] at hp)
      ho.sorted hb hf (by omega) hk
    simp only [app] at this
    exact ⟨e, by rw [this, error_bind]⟩

/-! ### The numbered hierarchy -/

theorem unnumbered_numbered (n last : Nat) (b : Phys σ) : unnumbered (numbered n last b) = unnumbered b := by
  induction b generalizing n last with
  | nil => rfl
  | ep d fn f rest ih => simp [numbered, unnumbered, ih]
  | br d fn dsp f child rest ihc ih => simp [numbered, unnumbered, ihc, ih]

theorem busNumbers_numbered (n last : Nat) (b : Phys σ) : busNumbers (numbered n last b) = List.range' (last + 1) (bridges b) := by
  induction b generalizing n last with
  | nil => rfl
  | ep d fn f rest ih => simp [numbered, busNumbers, bridges, ih]
  | br d fn dsp f child rest ihc ih =>
    simp only [numbered, busNumbers, bridges, ihc, ih]
    rw [show 1 + bridges child + bridges rest = (bridges child + bridges rest) + 1 by omega, List.range'_succ, List.cons_append,
      show last + 1 + bridges child + 1 = (last + 1 + 1) + bridges child by omega, List.range'_append_1]

theorem keys_numbered (n last : Nat) (b : Phys σ) :
    (top b).map (fun e => (e.1, e.2.1)) = (top (numbered n last b)).map (fun e => (e.1, e.2.1)) := by
  induction b generalizing n last with
  | nil => rfl
  | ep d fn f rest ih => simp [numbered, top, ← ih]
  | br d fn dsp f child rest _ ih => simp [numbered, top, ← ih]

/-- Buses whose numbers are not among those behind the bridges. -/
theorem at_outside (n last : Nat) (b : Phys σ) (id : PcieId) (h : id.bus ≤ last ∨ last + bridges b < id.bus) :
    (numbered n last b).at_ false id = [] := by
  induction b generalizing n last with
  | nil => rfl
  | ep d fn f rest ih => simpa [numbered, at_] using ih n last h
  | br d fn dsp f child rest _ ih =>
    simp only [bridges] at h
    have h1 : ¬ (last + 1 ≤ id.bus ∧ id.bus ≤ last + 1 + bridges child ∧ id ≠ ⟨0, 0, 0⟩) := by omega
    have h2 := ih n (last + 1 + bridges child) (by omega)
    simp only [numbered, at_, behind, Bool.false_eq_true, if_false, h1, decide_false, List.nil_append]
    exact h2

/-- A bridge on the bus. -/
theorem mem_numbered {n last : Nat} {b : Phys σ} {f : Br σ} {c : Phys σ} (h : (f, c) ∈ brsOf (numbered n last b)) :
    ∃ lo child, last ≤ lo ∧ lo + 1 + bridges child ≤ last + bridges b ∧ c = numbered (lo + 1) (lo + 1) child ∧ f.priBus = n ∧
      f.secBus = lo + 1 ∧ f.subBus = lo + 1 + bridges child ∧
      (BusesOk b → (∃ dsp, BusOk false dsp (top child)) ∧ BusesOk child) ∧
      ∀ id : PcieId, lo + 1 ≤ id.bus → id.bus ≤ lo + 1 + bridges child →
        (numbered n last b).at_ false id = c.at_ (id.bus = f.secBus) id := by
  induction b generalizing n last with
  | nil => simp [numbered, brsOf] at h
  | ep d fn f rest ih =>
    obtain ⟨lo, child, h1, h2, h3, h4, h5, h6, h7, h8⟩ := ih h
    refine ⟨lo, child, h1, h2, h3, h4, h5, h6, h7, ?_⟩
    intro id hl hh
    simpa [numbered, at_] using h8 id hl hh
  | br d fn dsp g ch rest _ ih =>
    simp only [numbered, brsOf, List.mem_cons, Prod.mk.injEq] at h
    rcases h with ⟨h1, h2⟩ | h
    · subst h1; subst h2
      refine ⟨last, ch, Nat.le_refl _, by simp only [bridges]; omega, rfl, rfl, rfl, rfl, fun hb => ⟨⟨_, hb.1⟩, hb.2.1⟩, ?_⟩
      intro id hl hh
      have hne : id ≠ ⟨0, 0, 0⟩ := by intro h; rw [h] at hl; simp at hl
      have h9 := at_outside n (last + 1 + bridges ch) rest id (by omega)
      simp only [numbered, at_, behind, Bool.false_eq_true, if_false, h9, hl, hh, hne, ne_eq, not_false_eq_true, and_self,
        decide_true, if_true, List.append_nil]
    · obtain ⟨lo, child, h1, h2, h3, h4, h5, h6, h7, h8⟩ := ih h
      refine ⟨lo, child, by omega, by simp only [bridges]; omega, h3, h4, h5, h6, fun hb => h7 hb.2.2, ?_⟩
      intro id hl hh
      have h10 : ¬ (last + 1 ≤ id.bus ∧ id.bus ≤ last + 1 + bridges ch ∧ id ≠ ⟨0, 0, 0⟩) := by omega
      have h9 := h8 id hl hh
      simp only [numbered, at_, behind, Bool.false_eq_true, if_false, h10, decide_false, List.nil_append]
      exact h9

theorem siblings_numbered (n last : Nat) (b : Phys σ) :
    (brsOf (numbered n last b)).Pairwise fun p q => p.1.subBus < q.1.secBus := by
  induction b generalizing n last with
  | nil => exact List.Pairwise.nil
  | ep d fn f rest ih => exact ih n last
  | br d fn dsp f child rest _ ih =>
    refine List.pairwise_cons.2 ⟨?_, ih n _⟩
    intro q hq
    obtain ⟨lo, c, h1, _, _, _, h5, _⟩ := mem_numbered (f := q.1) (c := q.2) hq
    simp only [h5]; omega

/-- A function in the numbered hierarchy: its bus number, and that exactly it answers. -/
theorem on_numbered {n last m : Nat} {b : Phys σ} {e : Nat × Nat × Fn σ} (h : On n (numbered n last b) m e) (hn : n ≤ last)
    (hs : (top b).Pairwise Before) (hb : BusesOk b) :
    (m = n ∧ e ∈ top (numbered n last b) ∨ last < m ∧ m ≤ last + bridges b) ∧
      (numbered n last b).at_ (m = n) ⟨m, e.1, e.2.1⟩ = [e.2.2] := by
  generalize hT : numbered n last b = T at h
  induction h generalizing last b with
  | here he =>
    subst hT
    refine ⟨.inl ⟨rfl, he⟩, ?_⟩
    simp only [decide_true]
    rw [at_true]
    have := filter_key (pairwise_map (keys_numbered _ last b) hs) (d := _) (f := _) (x := _) he
    rw [this]; rfl
  | @deeper n T f c m e hf _ ih =>
    subst hT
    obtain ⟨lo, child, h1, h2, h3, h4, h5, h6, h7, h8⟩ := mem_numbered hf
    obtain ⟨⟨dsp, g1⟩, g2⟩ := h7 hb
    rw [h5] at ih
    have := ih (Nat.le_refl _) g1.sorted g2 h3.symm
    have hm : lo + 1 ≤ m ∧ m ≤ lo + 1 + bridges child := by
      rcases this.1 with h | h
      · omega
      · omega
    refine ⟨.inr (by omega), ?_⟩
    have hd : decide (m = n) = false := by simp; omega
    rw [hd, h8 ⟨m, e.1, e.2.1⟩ hm.1 hm.2, h5]
    exact this.2

theorem takers_outside (n last : Nat) (b : Phys σ) (id : PcieId) (h : id.bus ≤ last ∨ last + bridges b < id.bus) :
    (numbered n last b).takers false id = 0 := by
  induction b generalizing n last with
  | nil => rfl
  | ep d fn f rest ih => simpa [numbered, takers] using ih n last h
  | br d fn dsp f child rest _ ih =>
    simp only [bridges] at h
    have h1 : ¬ (last + 1 ≤ id.bus ∧ id.bus ≤ last + 1 + bridges child ∧ id ≠ ⟨0, 0, 0⟩) := by omega
    have h2 := ih n (last + 1 + bridges child) (by omega)
    simp only [numbered, takers, behind, Bool.false_eq_true, if_false, h1, decide_false, Nat.zero_add]
    exact h2

theorem filter_length_le {es : List (Nat × Nat × Fn σ)} (h : es.Pairwise Before) (d f : Nat) :
    (es.filter fun e => e.1 = d ∧ e.2.1 = f).length ≤ 1 := by
  by_cases hx : ∃ x, (d, f, x) ∈ es
  · obtain ⟨x, hx⟩ := hx
    rw [filter_key h hx]
    exact Nat.le_refl _
  · rw [filter_none (fun x h => hx ⟨x, h⟩)]
    exact Nat.zero_le _

theorem clear_keys {n last : Nat} {b : Phys σ} (hs : (top b).Pairwise Before) (id : PcieId) :
    (numbered n last b).clear true id = true :=
  clear_true _ id (filter_length_le (pairwise_map (keys_numbered _ last b) hs) _ _)

/-- In the numbered hierarchy no request has two takers on a bus. -/
theorem clear_numbered (n last : Nat) (b : Phys σ) (hb : BusesOk b) (id : PcieId) : (numbered n last b).clear false id = true := by
  induction b generalizing n last with
  | nil => rfl
  | ep d fn f rest ih => simpa [numbered, clear] using ih n last hb
  | br d fn dsp f child rest ihc ih =>
    have h2 := ih n (last + 1 + bridges child) hb.2.2
    simp only [numbered, clear, Bool.false_eq_true, if_false, h2, Bool.and_true]
    by_cases h1 : behind { f with priBus := n, secBus := last + 1, subBus := last + 1 + bridges child } id = true
    · rw [h1]
      simp only [behind, decide_eq_true_eq] at h1
      rw [takers_outside n _ rest id (by omega)]
      simp only [Bool.not_true, Bool.false_or, decide_true, Bool.true_and]
      by_cases h3 : id.bus = last + 1
      · rw [decide_eq_true h3]; exact clear_keys hb.1.sorted id
      · rw [decide_eq_false h3]; exact ihc _ _ hb.2.1
    · rw [Bool.eq_false_iff.2 h1]; rfl

/-- Where nothing is, nothing answers. -/
theorem off_numbered {n last : Nat} {b : Phys σ} (id : PcieId) (hn : n ≤ last)
    (h : ∀ x, ¬ On n (numbered n last b) id.bus (id.device, id.function, x)) :
    (numbered n last b).at_ (id.bus = n) id = [] := by
  by_cases hi : id.bus = n
  · simp only [hi, decide_true]
    rw [at_true, filter_none, List.map_nil]
    intro x hx
    exact h x (by rw [hi]; exact .here hx)
  · simp only [hi, decide_false]
    by_cases hr : id.bus ≤ last ∨ last + bridges b < id.bus
    · exact at_outside n last b id hr
    · -- behind one of the bridges
      induction b using Phys.rec generalizing n last with
      | nil => rfl
      | ep d fn f rest ih =>
        simp only [numbered, at_, Bool.false_eq_true, false_and, if_false, List.nil_append]
        exact ih hn (fun x hx => h x (by
          cases hx with
          | here hx => exact absurd rfl hi
          | deeper hf hx => exact .deeper (f := _) hf hx)) hi hr
      | br d fn dsp f child rest ihc ih =>
        have hpart : (numbered n (last + 1 + bridges child) rest).at_ false id = [] := by
          by_cases hr2 : id.bus ≤ last + 1 + bridges child ∨ last + 1 + bridges child + bridges rest < id.bus
          · exact at_outside n _ rest id hr2
          · exact ih (by omega) (fun x hx => h x (by
              cases hx with
              | here hx => exact absurd rfl hi
              | deeper hf hx => exact .deeper (by simp only [numbered, brsOf, List.mem_cons]; exact .inr hf) hx)) hi hr2
        simp only [numbered, at_, Bool.false_eq_true, if_false, hpart, List.append_nil]
        split
        · rename_i hbh
          simp only [behind, decide_eq_true_eq] at hbh
          have hin : ∀ x, ¬ On (last + 1) (numbered (last + 1) (last + 1) child) id.bus (id.device, id.function, x) := by
            intro x hx
            refine h x (.deeper (f := { f with priBus := n, secBus := last + 1, subBus := last + 1 + bridges child }) ?_ hx)
            simp [numbered, brsOf]
          by_cases hc : id.bus = last + 1
          · simp only [hc, decide_true]
            rw [at_true, filter_none, List.map_nil]
            intro x hx
            exact hin x (by rw [hc]; exact .here hx)
          · simp only [hc, decide_false]
            exact ihc (Nat.le_refl _) hin hc (by omega)
        · rfl

theorem hasBr_numbered {n last m : Nat} {b : Phys σ} {f : Br σ} {c : Phys σ} (h : HasBr n (numbered n last b) m f c)
    (hn : n ≤ last) :
    n ≤ m ∧ ∃ lo child, last ≤ lo ∧ m ≤ lo ∧ lo + 1 + bridges child ≤ last + bridges b ∧ c = numbered (lo + 1) (lo + 1) child ∧
      f.priBus = m ∧ f.secBus = lo + 1 ∧ f.subBus = lo + 1 + bridges child := by
  generalize hT : numbered n last b = T at h
  induction h generalizing last b with
  | here hf =>
    subst hT
    obtain ⟨lo, child, h1, h2, h3, h4, h5, h6, _⟩ := mem_numbered hf
    exact ⟨Nat.le_refl _, lo, child, h1, by omega, h2, h3, h4, h5, h6⟩
  | deeper hf _ ih =>
    subst hT
    obtain ⟨lo, child, h1, h2, h3, h4, h5, h6, _⟩ := mem_numbered hf
    rw [h5] at ih
    obtain ⟨g0, lo', child', g1, g2, g3, g4, g5, g6, g7⟩ := ih (Nat.le_refl _) h3.symm
    exact ⟨by omega, lo', child', by omega, g2, by omega, g4, g5, g6, g7⟩

theorem mem_idsTop (n last : Nat) (b : Phys σ) (id : PcieId) :
    id ∈ idsTop n b ↔ id.bus = n ∧ ∃ x, (id.device, id.function, x) ∈ top (numbered n last b) := by
  have hk := keys_numbered n last b
  have h1 : idsTop n b = ((top (numbered n last b)).map fun e => (e.1, e.2.1)).map fun k => ⟨n, k.1, k.2⟩ := by
    rw [← hk, idsTop, List.map_map]; rfl
  rw [h1, List.map_map]
  constructor
  · intro h
    obtain ⟨e, he, rfl⟩ := List.mem_map.1 h
    exact ⟨rfl, e.2.2, he⟩
  · rintro ⟨hb, x, hx⟩
    exact List.mem_map.2 ⟨_, hx, by cases id; simp_all⟩

theorem mem_idsBelow (n last : Nat) (b : Phys σ) (id : PcieId) :
    id ∈ idsBelow last b ↔ ∃ f c, (f, c) ∈ brsOf (numbered n last b) ∧ ∃ x, On f.secBus c id.bus (id.device, id.function, x) := by
  induction b generalizing n last with
  | nil => simp [idsBelow, numbered, brsOf]
  | ep d fn f rest ih => simpa [idsBelow, numbered, brsOf] using ih n last
  | br d fn dsp f child rest ihc ih =>
    simp only [idsBelow, List.mem_append, mem_idsTop (last + 1) (last + 1) child, ihc (last + 1) (last + 1), ih n,
      numbered, brsOf, List.mem_cons, Prod.mk.injEq]
    constructor
    · rintro ((⟨hb, x, hx⟩ | ⟨g, c, hg, x, hx⟩) | ⟨g, c, hg, hx⟩)
      · exact ⟨_, _, .inl ⟨rfl, rfl⟩, x, by rw [hb]; exact .here hx⟩
      · exact ⟨_, _, .inl ⟨rfl, rfl⟩, x, .deeper hg hx⟩
      · exact ⟨g, c, .inr hg, hx⟩
    · rintro ⟨g, c, ⟨rfl, rfl⟩ | hg, x, hx⟩
      · left
        generalize hid : id.bus = m at hx
        cases hx with
        | here he => exact .inl ⟨rfl, x, he⟩
        | deeper hf hx => exact .inr ⟨_, _, hf, x, hx⟩
      · exact .inr ⟨g, c, hg, x, hx⟩

theorem mem_ids (n last : Nat) (b : Phys σ) (id : PcieId) :
    id ∈ idsTop n b ++ idsBelow last b ↔ ∃ x, On n (numbered n last b) id.bus (id.device, id.function, x) := by
  rw [List.mem_append, mem_idsTop n last, mem_idsBelow n last]
  constructor
  · rintro (⟨hb, x, hx⟩ | ⟨f, c, hf, x, hx⟩)
    · exact ⟨x, by rw [hb]; exact .here hx⟩
    · exact ⟨x, .deeper hf hx⟩
  · rintro ⟨x, hx⟩
    generalize hid : id.bus = m at hx
    cases hx with
    | here he => exact .inl ⟨rfl, x, he⟩
    | deeper hf hx => exact .inr ⟨_, _, hf, x, hx⟩

theorem idsBelow_range {last : Nat} {b : Phys σ} {id : PcieId} (h : id ∈ idsBelow last b) :
    last < id.bus ∧ id.bus ≤ last + bridges b := by
  induction b generalizing last with
  | nil => simp [idsBelow] at h
  | ep d fn f rest ih => exact ih h
  | br d fn dsp f child rest ihc ih =>
    simp only [idsBelow, List.mem_append] at h
    simp only [bridges]
    rcases h with (h | h) | h
    · simp only [idsTop, List.mem_map] at h
      obtain ⟨e, _, rfl⟩ := h
      simp only; omega
    · have := ihc h; omega
    · have := ih h; omega

theorem idsTop_nodup (n : Nat) {b : Phys σ} (hs : (top b).Pairwise Before) : (idsTop n b).Nodup := by
  rw [idsTop, List.Nodup, List.pairwise_map]
  refine hs.imp ?_
  intro a c h heq
  simp only [PcieId.mk.injEq] at heq
  simp only [Before] at h; omega

theorem idsBelow_nodup (last : Nat) {b : Phys σ} (hb : BusesOk b) : (idsBelow last b).Nodup := by
  induction b generalizing last with
  | nil => simp [idsBelow]
  | ep d fn f rest ih => exact ih last hb
  | br d fn dsp f child rest ihc ih =>
    simp only [idsBelow]
    rw [List.nodup_append, List.nodup_append]
    refine ⟨⟨idsTop_nodup _ hb.1.sorted, ihc _ hb.2.1, ?_⟩, ih _ hb.2.2, ?_⟩
    · intro a ha c hc heq
      subst heq
      have := idsBelow_range hc
      simp only [idsTop, List.mem_map] at ha
      obtain ⟨e, _, rfl⟩ := ha
      simp only at this; omega
    · intro a ha c hc heq
      subst heq
      have h1 := idsBelow_range hc
      rcases List.mem_append.1 ha with h | h
      · simp only [idsTop, List.mem_map] at h
        obtain ⟨e, _, rfl⟩ := h
        simp only at h1; omega
      · have := idsBelow_range h; omega

theorem ids_nodup (n last : Nat) {b : Phys σ} (hn : n ≤ last) (hs : (top b).Pairwise Before) (hb : BusesOk b) :
    (idsTop n b ++ idsBelow last b).Nodup := by
  rw [List.nodup_append]
  refine ⟨idsTop_nodup _ hs, idsBelow_nodup _ hb, ?_⟩
  intro a ha c hc heq
  subst heq
  have := idsBelow_range hc
  simp only [idsTop, List.mem_map] at ha
  obtain ⟨e, _, rfl⟩ := ha
  simp only at this; omega

end Pcie
