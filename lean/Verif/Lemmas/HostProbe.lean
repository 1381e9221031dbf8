/- Probing of one bus by the host, with `setup` of the functions found. -/
import Verif.Lemmas.HostPath
namespace Pcie
open Spec Phys
variable {σ : Type}

/-- An endpoint after BAR sizing, and what the host has recorded. -/
def rdE (ops : CapOps σ) (f : Ep σ) : Ep σ × DevBars := match readBars (Ep.regs ops) 6 12 f {} with | .ok r => r | .error _ => (f, {})
/-- A bridge after BAR sizing, and what the host has recorded. -/
def rdB (ops : CapOps σ) (f : Br σ) : Br σ × DevBars := match readBars (Br.regs ops) 2 14 f {} with | .ok r => r | .error _ => (f, {})
/-- A function after BAR sizing, and what the host has recorded. -/
def rdFn (ops : CapOps σ) : Fn σ → Fn σ × DevBars
  | .ep f => (.ep (rdE ops f).1, (rdE ops f).2)
  | .br dsp f => (.br dsp (rdB ops f).1, (rdB ops f).2)

/-- BAR sizing raises no exception, and the header type is that of the kind of function. -/
def GoodFn (ops : CapOps σ) : Fn σ → Prop
  | .ep f => f.headerLayout % 128 = 0 ∧ ∃ r, readBars (Ep.regs ops) 6 12 f {} = .ok r
  | .br _ f => f.headerLayout % 128 = 1 ∧ BarsLt f.bars ∧ ∃ r, readBars (Br.regs ops) 2 14 f {} = .ok r

/-- All functions are like that. -/
def Good (ops : CapOps σ) : Phys σ → Prop
  | .nil => True
  | .ep _ _ f rest => GoodFn ops (.ep f) ∧ Good ops rest
  | .br _ _ dsp f child rest => GoodFn ops (.br dsp f) ∧ Good ops child ∧ Good ops rest

/-- The bus after BAR sizing of the functions on it. -/
def rdTop (ops : CapOps σ) : Phys σ → Phys σ
  | .nil => .nil
  | .ep d fn f rest => .ep d fn (rdE ops f).1 (rdTop ops rest)
  | .br d fn dsp f child rest => .br d fn dsp (rdB ops f).1 child (rdTop ops rest)

theorem ent_cases (b : Phys σ) : b = .nil ∨ ∃ d fn x c R, b = ent d fn x c R := by
  cases b with
  | nil => exact .inl rfl
  | ep d fn f rest => exact .inr ⟨d, fn, .ep f, .nil, rest, rfl⟩
  | br d fn dsp f child rest => exact .inr ⟨d, fn, .br dsp f, child, rest, rfl⟩

theorem top_ent (d fn : Nat) (x : Fn σ) (c R : Phys σ) : top (ent d fn x c R) = (d, fn, x) :: top R := by cases x <;> rfl
theorem ent_app (d fn : Nat) (x : Fn σ) (c A R : Phys σ) : (ent d fn x c A).app R = ent d fn x c (A.app R) := by cases x <;> rfl
theorem rdTop_ent (ops : CapOps σ) (d fn : Nat) (x : Fn σ) (c R : Phys σ) : rdTop ops (ent d fn x c R) = ent d fn (rdFn ops x).1 c (rdTop ops R) := by
  cases x <;> rfl
theorem rdTop_app (ops : CapOps σ) (A R : Phys σ) : rdTop ops (A.app R) = (rdTop ops A).app (rdTop ops R) := by
  induction A with
  | nil => rfl
  | ep d fn f rest ih => simp [app, rdTop, ih]
  | br d fn dsp f child rest _ ih => simp [app, rdTop, ih]
theorem good_ent {ops : CapOps σ} {d fn : Nat} {x : Fn σ} {c R : Phys σ} (h : Good ops (ent d fn x c R)) : GoodFn ops x ∧ Good ops R := by
  cases x with
  | ep f => exact h
  | br dsp f => exact ⟨h.1, h.2.2⟩
theorem good_app {ops : CapOps σ} {A R : Phys σ} (h : Good ops (A.app R)) : Good ops A ∧ Good ops R := by
  induction A with
  | nil => exact ⟨trivial, h⟩
  | ep d fn f rest ih => obtain ⟨i1, i2⟩ := ih h.2; exact ⟨⟨h.1, i1⟩, i2⟩
  | br d fn dsp f child rest _ ih => obtain ⟨i1, i2⟩ := ih h.2.2; exact ⟨⟨h.1, h.2.1, i1⟩, i2⟩
theorem rdTop_keys (ops : CapOps σ) (b : Phys σ) : (top (rdTop ops b)).map (fun e => (e.1, e.2.1)) = (top b).map (fun e => (e.1, e.2.1)) := by
  induction b with
  | nil => rfl
  | ep d fn f rest ih => simp [rdTop, top, ih]
  | br d fn dsp f child rest _ ih => simp [rdTop, top, ih]

/-- What the host knows about the functions of a bus. -/
def DsOk (ops : CapOps σ) (m : Nat) : List (Nat × Nat × Fn σ) → List Host.Device → Prop
  | [], [] => True
  | e :: es, p :: ps => Describes ⟨m, e.1, e.2.1⟩ e.2.2 p ∧ p.bars = (rdFn ops e.2.2).2 ∧ DsOk ops m es ps
  | _, _ => False

theorem DsOk.append {ops : CapOps σ} {m : Nat} {es es' : List (Nat × Nat × Fn σ)} {ps ps' : List Host.Device} (h : DsOk ops m es ps) (h' : DsOk ops m es' ps') :
    DsOk ops m (es ++ es') (ps ++ ps') := by
  induction es generalizing ps with
  | nil => cases ps with
    | nil => exact h'
    | cons p ps => exact h.elim
  | cons e es ih => cases ps with
    | nil => exact h.elim
    | cons p ps => exact ⟨h.1, h.2.1, ih h.2.2⟩

theorem setupRegs_fn (ops : CapOps σ) (tag : Tlp → Nat) (id : PcieId) {x : Fn σ} (h : GoodFn ops x) :
    ∃ p, (Host.setupRegs id (idDword x)).onFn ops tag id x = .ok ((rdFn ops x).1, p) ∧
      Describes id x { p with dsp := isDsp x } ∧ p.bars = (rdFn ops x).2 := by
  cases x with
  | ep f =>
    obtain ⟨h1, ⟨f', d⟩, h2⟩ := h
    obtain ⟨p, q1, q2, q3, -⟩ := setupRegs_ep ops tag id h1 h2
    have e : rdE ops f = (f', d) := by unfold rdE; rw [h2]
    refine ⟨p, ?_, q2, ?_⟩ <;> simp only [rdFn, e]
    · exact q1
    · exact q3
  | br dsp f =>
    obtain ⟨h1, hb, ⟨f', d⟩, h2⟩ := h
    obtain ⟨p, q1, q2, q3, -⟩ := setupRegs_br (dsp := dsp) ops tag id h1 hb h2
    have e : rdB ops f = (f', d) := by unfold rdB; rw [h2]
    refine ⟨p, ?_, q2, ?_⟩ <;> simp only [rdFn, e]
    · exact q1
    · exact q3

section
variable {ops : CapOps σ} {tag : Tlp → Nat} {host : BrFn σ}

theorem setup_tr (hh : CfgHost host) {C : List (Frame σ)} {n : Nat} (hC : CtxOk C n) (hn : n ≤ 255) {d fn : Nat} {L : Phys σ} (hk : NoKey d fn L)
    (hi : CfgId ⟨n, d, fn⟩) {x : Fn σ} {c R : Phys σ} (hs : (top (L.app (ent d fn x c R))).Pairwise Before) (hg : GoodFn ops x) {S : PcieId → Prop} :
    ∃ p, Tr ops tag host (Host.setup ⟨n, d, fn⟩ (idDword x)) (plug C (L.app (ent d fn x c R))) S p (plug C (L.app (ent d fn (rdFn ops x).1 c R))) S ∧
      Describes ⟨n, d, fn⟩ x p ∧ p.bars = (rdFn ops x).2 := by
  obtain ⟨p, q1, q2, q3⟩ := setupRegs_fn ops tag ⟨n, d, fn⟩ hg
  refine ⟨{ p with dsp := isDsp x }, ?_, q2, q3⟩
  have t1 := Tr.local hh (path_of hC) hn hk hi (c := c) (R := R) q1 (S := S)
  have hs' : (top (L.app (ent d fn (rdFn ops x).1 c R))).Pairwise Before := by
    apply pairwise_map _ hs
    rw [top_app, top_app, top_ent, top_ent]
    simp
  have t2 := Tr.dsp (ops := ops) (tag := tag) (host := host) ⟨n, d, fn⟩ (b := plug C (L.app (ent d fn (rdFn ops x).1 c R))) (S := S)
  rw [reach_dsp (reach_plug hC _ hn) hs' (show (d, fn, (rdFn ops x).1) ∈ _ by rw [top_app, top_ent]; simp),
    show (foundOf n (d, fn, (rdFn ops x).1)).dsp = isDsp x by cases x <;> rfl] at t2
  exact Tr.bind t1 (Tr.bind t2 Tr.pure)

theorem plug_none {C : List (Frame σ)} {n U : Nat} (h : Path C n U) (hU : n ≤ U) {d fn : Nat} {b : Phys σ} (hk : NoKey d fn b) :
    (plug C b).first (n = 0) ⟨n, d, fn⟩ = none := by
  have h1 := path_first h b ⟨n, d, fn⟩ (Nat.le_refl _) hU
  simp only [decide_true] at h1
  rw [h1]
  have := first_nokey hk .nil n
  rw [app_nil] at this
  rw [this]
  rfl

theorem probeFns_tr (hh : CfgHost host) {C : List (Frame σ)} {n : Nat} (hC : CtxOk C n) (hn : n ≤ 255) {d : Nat} (h0 : ¬ (n = 0 ∧ d = 0)) :
    ∀ (m k : Nat) (L R : Phys σ) (S : PcieId → Prop), k + m = 8 → (top (L.app R)).Pairwise Before →
      (∀ e ∈ top L, e.1 < d ∨ e.1 = d ∧ e.2.1 < k) → (∀ e ∈ top R, d < e.1 ∨ e.1 = d ∧ k ≤ e.2.1) → (∀ e ∈ top R, e.2.1 < 8) →
      (∀ e ∈ top R, idDword e.2.2 ≠ 0xffffffff) →
      (∀ a ∈ top R, ∀ b ∈ top R, a.1 = b.1 → a.2.1 < b.2.1 → multi a.2.2 = true) → Good ops R →
      ∃ A R' ds, R = A.app R' ∧
        Tr ops tag host (Host.probeFns n d (List.range' k m)) (plug C (L.app R)) S ds (plug C (L.app ((rdTop ops A).app R'))) (fun id => S id ∨ id ∈ idsTop n A) ∧
        DsOk ops n (top A) ds ∧ (∀ e ∈ top A, e.1 = d) ∧ ∀ e ∈ top R', d < e.1 := by
  intro m
  induction m with
  | zero =>
    intro k L R S hkm hs hL hR hr hp hmu hg
    refine ⟨.nil, R, [], rfl, Tr.pure.mono (fun _ h => h) (fun id h => h.resolve_right (fun h => nomatch h)), trivial, (fun _ h => nomatch h), fun e he => ?_⟩
    have := hR e he
    have := hr e he
    omega
  | succ m ih =>
    intro k L R S hkm hs hL hR hr hp hmu hg
    have hi : CfgId ⟨n, d, k⟩ := ⟨hn, fun he => by rw [PcieId.mk.injEq] at he; exact h0 ⟨he.1, he.2.1⟩⟩
    have hkL : NoKey d k L := fun e he hc => by have := hL e he; omega
    rw [List.range'_succ, Host.probeFns]
    rw [top_app, List.pairwise_append] at hs
    by_cases hx : NoKey d k R
    · -- there is no such function
      have hfirst : (plug C (L.app R)).first (n = 0) ⟨n, d, k⟩ = none := plug_none (path_of hC) hn (fun e he => by
        rw [top_app] at he
        rcases List.mem_append.1 he with he | he
        · exact hkL e he
        · exact hx e he)
      obtain ⟨A, R', ds, r1, r2, r3⟩ := ih (k + 1) L R S (by omega) (by rw [top_app, List.pairwise_append]; exact hs)
        (fun e he => by have := hL e he; omega) (fun e he => by have h1 := hR e he; have h2 := hx e he; omega) hr hp hmu hg
      refine ⟨A, R', ds, r1, ?_, r3⟩
      refine Tr.bind (Tr.readNone hh hi hfirst 0) ?_
      rw [if_pos rfl]
      exact r2
    · -- the first function in `R`
      have hR0 : ∃ x c R1, R = ent d k x c R1 := by
        rcases ent_cases R with rfl | ⟨d', fn', x, c, R1, rfl⟩
        · exact absurd (fun e he => nomatch he) hx
        · rw [top_ent] at hs hR
          have h2 := List.pairwise_cons.1 hs.2.1
          have h3 := hR (d', fn', x) (by simp)
          simp only at h3
          have : d' = d ∧ fn' = k := by
            refine Classical.byContradiction fun hc => hx ?_
            intro e he hec
            rw [top_ent] at he
            rcases List.mem_cons.1 he with rfl | he
            · exact hc hec
            · have := h2.1 e he
              simp only [Before] at this
              omega
          obtain ⟨rfl, rfl⟩ := this
          exact ⟨x, c, R1, rfl⟩
      obtain ⟨x, c, R1, rfl⟩ := hR0
      have hid := hp (d, k, x) (by rw [top_ent]; simp)
      obtain ⟨hg1, hg2⟩ := good_ent hg
      rw [top_ent] at hs hR hr hp hmu
      obtain ⟨hsL, hsR, hsLR⟩ := hs
      obtain ⟨hx1, hsR1⟩ := List.pairwise_cons.1 hsR
      have hsx : (top (L.app (ent d k x c R1))).Pairwise Before := by rw [top_app, List.pairwise_append, top_ent]; exact ⟨hsL, hsR, hsLR⟩
      obtain ⟨p, t2, p1, p2⟩ := setup_tr (tag := tag) hh hC hn hkL hi hsx hg1 (S := fun id => S id ∨ id = ⟨n, d, k⟩)
      have t1 := Tr.readD (ops := ops) (tag := tag) hh hi (path_ent (path_of hC) hn hkL x c R1).1 (r := 0) (read_id_lt ops x) (S := S)
      rw [read_id] at t1
      -- what is left
      have hR1 : ∀ e ∈ top R1, d < e.1 ∨ e.1 = d ∧ k + 1 ≤ e.2.1 := fun e he => by
        have := hx1 e he
        simp only [Before] at this
        omega
      by_cases hm : multi x = false
      · have hpm : p.multifunction = false := by rw [p1.multi]; cases x <;> exact hm
        refine ⟨ent d k x c .nil, R1, [p], by rw [ent_app]; rfl, ?_, ?_, ?_, ?_⟩
        · refine Tr.bind t1 ?_
          rw [if_neg hid]
          refine Tr.bind t2 ?_
          rw [if_pos hpm, rdTop_ent, ent_app]
          refine Tr.pure.mono (fun _ h => h) (fun id h => ?_)
          simpa [idsTop, top_ent, top] using h
        · rw [top_ent]; exact ⟨p1, p2, trivial⟩
        · intro e he
          rw [top_ent] at he
          rw [List.mem_singleton.1 he]
        · intro e he
          rcases hR1 e he with h | h
          · exact h
          · have := hmu (d, k, x) (by simp) e (by simp [he]) h.1.symm (by simp only; omega)
            rw [hm] at this
            cases this
      · have hpm : ¬ p.multifunction = false := by rw [p1.multi]; cases x <;> exact hm
        obtain ⟨A, R', ds, r1, r2, r3, r4, r5⟩ := ih (k + 1) (L.app (ent d k (rdFn ops x).1 c .nil)) R1 (fun id => S id ∨ id = ⟨n, d, k⟩) (by omega)
          (by
            apply pairwise_map _ hsx
            rw [app_assoc, ent_app, top_app, top_app, top_ent, top_ent]
            simp [app])
          (fun e he => by
            rw [top_app, top_ent] at he
            rcases List.mem_append.1 he with he | he
            · have := hL e he; omega
            · rw [List.mem_singleton.1 he]; simp)
          hR1 (fun e he => hr e (by simp [he])) (fun e he => hp e (by simp [he])) (fun a ha b hb => hmu a (by simp [ha]) b (by simp [hb])) hg2
        rw [app_assoc, ent_app, app_assoc, ent_app] at r2
        refine ⟨ent d k x c A, R', p :: ds, by rw [ent_app, ← r1], ?_, ?_, ?_, r5⟩
        · refine Tr.bind t1 ?_
          rw [if_neg hid]
          refine Tr.bind t2 ?_
          rw [if_neg hpm, rdTop_ent, ent_app]
          refine Tr.bind r2 (Tr.pure.mono (fun _ h => h) (fun id h => ?_))
          simpa [idsTop, top_ent, or_assoc] using h
        · rw [top_ent]; exact ⟨p1, p2, r3⟩
        · intro e he
          rw [top_ent] at he
          rcases List.mem_cons.1 he with rfl | he
          · rfl
          · exact r4 e he

theorem probeDevs_tr (hh : CfgHost host) {C : List (Frame σ)} {n : Nat} (hC : CtxOk C n) (hn : n ≤ 255) {one : Bool} {es : List (Nat × Nat × Fn σ)}
    (ho : BusOk (n = 0) one es) :
    ∀ (m k : Nat) (L R : Phys σ) (S : PcieId → Prop), k + m = 32 → (top (L.app R)).Pairwise Before →
      (∀ e ∈ top L, e.1 < k) → (∀ e ∈ top R, k ≤ e.1) → (∀ e ∈ top R, e ∈ es) → (∀ e ∈ top R, ∃ f, (e.1, 0, f) ∈ top R) → Good ops R →
      ∃ ds, Tr ops tag host (Host.probeDevs n one (List.range' k m)) (plug C (L.app R)) S ds (plug C (L.app (rdTop ops R))) (fun id => S id ∨ id ∈ idsTop n R) ∧
        DsOk ops n (top R) ds := by
  intro m
  induction m with
  | zero =>
    intro k L R S hkm hs hL hR hsub hz hg
    have : R = .nil := by
      rcases ent_cases R with rfl | ⟨d', fn', x, c, R1, rfl⟩
      · rfl
      · have h1 := hR (d', fn', x) (by rw [top_ent]; simp)
        have h2 := (ho.range _ (hsub (d', fn', x) (by rw [top_ent]; simp))).1
        simp only at h1 h2
        omega
    subst this
    exact ⟨[], Tr.pure.mono (fun _ h => h) (fun id h => h.resolve_right (fun h => nomatch h)), trivial⟩
  | succ m ih =>
    intro k L R S hkm hs hL hR hsub hz hg
    rw [List.range'_succ, Host.probeDevs]
    have hs0 := hs
    rw [top_app, List.pairwise_append] at hs
    have skip : (∀ e ∈ top R, e.1 ≠ k) → ∃ ds, Tr ops tag host (Host.probeDevs n one (List.range' (k + 1) m)) (plug C (L.app R)) S ds
        (plug C (L.app (rdTop ops R))) (fun id => S id ∨ id ∈ idsTop n R) ∧ DsOk ops n (top R) ds := fun h =>
      ih (k + 1) L R S (by omega) hs0 (fun e he => by have := hL e he; omega) (fun e he => by have h1 := hR e he; have h2 := h e he; omega) hsub hz hg
    by_cases h0 : n = 0 ∧ k = 0
    · rw [if_pos h0]
      exact skip (fun e he h => ho.host (by simp [h0.1]) e (hsub e he) (h.trans h0.2))
    · rw [if_neg h0, if_neg (by omega)]
      have hi : CfgId ⟨n, k, 0⟩ := ⟨hn, fun he => by rw [PcieId.mk.injEq] at he; exact h0 ⟨he.1, he.2.1⟩⟩
      have hkL : NoKey k 0 L := fun e he hc => by have := hL e he; omega
      by_cases hx : NoKey k 0 R
      · have hfirst : (plug C (L.app R)).first (n = 0) ⟨n, k, 0⟩ = none := plug_none (path_of hC) hn (fun e he => by
          rw [top_app] at he
          rcases List.mem_append.1 he with he | he
          · exact hkL e he
          · exact hx e he)
        obtain ⟨ds, r1, r2⟩ := skip (fun e he h => by
          obtain ⟨f, hf⟩ := hz e he
          exact hx _ hf ⟨h, rfl⟩)
        refine ⟨ds, ?_, r2⟩
        refine Tr.bind (Tr.readNone hh hi hfirst 0) ?_
        rw [if_pos (by decide)]
        exact r1
      · have hR0 : ∃ x c R1, R = ent k 0 x c R1 := by
          rcases ent_cases R with rfl | ⟨d', fn', x, c, R1, rfl⟩
          · exact absurd (fun e he => nomatch he) hx
          · rw [top_ent] at hs hR
            have h2 := List.pairwise_cons.1 hs.2.1
            have h3 := hR (d', fn', x) (by simp)
            simp only at h3
            have : d' = k ∧ fn' = 0 := by
              refine Classical.byContradiction fun hc => hx ?_
              intro e he hec
              rw [top_ent] at he
              rcases List.mem_cons.1 he with rfl | he
              · exact hc hec
              · have := h2.1 e he
                simp only [Before] at this
                omega
            obtain ⟨rfl, rfl⟩ := this
            exact ⟨x, c, R1, rfl⟩
        obtain ⟨x, c, R1, hRe⟩ := hR0
        have hxR : (k, 0, x) ∈ top R := by rw [hRe, top_ent]; simp
        have hid := ho.present _ (hsub _ hxR)
        have hv := ho.vendor _ (hsub _ hxR) rfl
        have t1 := Tr.readD (ops := ops) (tag := tag) hh hi (path_ent (path_of hC) hn hkL x c R1).1 (r := 0) (read_id_lt ops x) (S := S)
        rw [read_id, ← hRe] at t1
        obtain ⟨A, R', ds, r1, r2, r3, r4, r5⟩ := probeFns_tr (ops := ops) (tag := tag) hh hC hn h0 8 0 L R (fun id => S id ∨ id = ⟨n, k, 0⟩) rfl hs0
          (fun e he => by have := hL e he; omega) (fun e he => by have := hR e he; omega) (fun e he => (ho.range e (hsub e he)).2)
          (fun e he => ho.present e (hsub e he)) (fun a ha b hb => ho.multi a (hsub a ha) b (hsub b hb)) hg
        have hxA : (k, 0, x) ∈ top A := by
          rw [r1, top_app] at hxR
          rcases List.mem_append.1 hxR with h | h
          · exact h
          · have := r5 _ h; simp at this
        have hz' : (⟨n, k, 0⟩ : PcieId) ∈ idsTop n A := List.mem_map.2 ⟨_, hxA, rfl⟩
        have hnv : ¬ (idDword x = 0 ∨ idDword x = 0xffffffff ∨ idDword x = 0xffff0000 ∨ idDword x = 0x0000ffff) := by
          simp only at hv hid
          rintro (h | h | h | h)
          · exact hv.1 h
          · exact hid h
          · exact hv.2.1 h
          · exact hv.2.2.1 h
        cases one with
        | true =>
          have hn' : R' = .nil := by
            rcases ent_cases R' with rfl | ⟨d', fn', y, c', R2, rfl⟩
            · rfl
            · have hy : (d', fn', y) ∈ top R := by rw [r1, top_app, top_ent]; simp
              have h1 := ho.single rfl _ (hsub _ hy) _ (hsub _ hxR)
              have h2 := r5 (d', fn', y) (by rw [top_ent]; simp)
              simp only at h1 h2
              omega
          subst hn'
          rw [app_nil] at r1 r2
          subst r1
          refine ⟨ds, ?_, r3⟩
          refine Tr.bind t1 ?_
          rw [if_neg hnv, if_neg hv.2.2.2]
          refine Tr.bind r2 ?_
          rw [if_pos rfl]
          refine Tr.pure.mono (fun _ h => h) (fun id h => ?_)
          rcases h with h | h
          · exact .inl (.inl h)
          · exact .inr h
        | false =>
          obtain ⟨ds', q1, q2⟩ := ih (k + 1) (L.app (rdTop ops A)) R' (fun id => (S id ∨ id = ⟨n, k, 0⟩) ∨ id ∈ idsTop n A) (by omega)
            (by
              apply pairwise_map _ hs0
              rw [r1, app_assoc]
              simp only [top_app, List.map_append, rdTop_keys])
            (fun e he => by
              rw [top_app] at he
              rcases List.mem_append.1 he with he | he
              · have := hL e he; omega
              · have h1 : (e.1, e.2.1) ∈ (top A).map (fun e => (e.1, e.2.1)) := by
                  rw [← rdTop_keys ops]; exact List.mem_map_of_mem (f := fun e : Nat × Nat × Fn σ => (e.1, e.2.1)) he
                obtain ⟨e', he', h2⟩ := List.mem_map.1 h1
                have := r4 e' he'
                simp only [Prod.mk.injEq] at h2
                omega)
            (fun e he => r5 e he)
            (fun e he => hsub e (by rw [r1, top_app]; exact List.mem_append_right _ he))
            (fun e he => by
              obtain ⟨f, hf⟩ := hz e (by rw [r1, top_app]; exact List.mem_append_right _ he)
              rw [r1, top_app] at hf
              rcases List.mem_append.1 hf with h | h
              · have h1 := r4 _ h
                have h2 := r5 e he
                simp only at h1
                omega
              · exact ⟨f, h⟩)
            (by rw [r1] at hg; exact (good_app hg).2)
          rw [app_assoc, app_assoc, ← rdTop_app, ← r1] at q1
          refine ⟨ds ++ ds', ?_, by rw [r1, top_app]; exact r3.append q2⟩
          refine Tr.bind t1 ?_
          rw [if_neg hnv, if_neg hv.2.2.2]
          refine Tr.bind r2 ?_
          rw [if_neg (by simp)]
          refine Tr.bind q1 (Tr.pure.mono (fun _ h => h) (fun id h => ?_))
          rcases h with h | h
          · exact .inl (.inl (.inl h))
          · rw [r1, idsTop, top_app, List.map_append] at h
            rcases List.mem_append.1 h with h | h
            · exact .inl (.inr h)
            · exact .inr h

end

end Pcie
