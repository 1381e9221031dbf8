/- Programs of the host for a function somewhere in the hierarchy. -/
import Verif.Lemmas.HostDev
namespace Pcie
open Spec Phys
variable {σ : Type}

/-- The bridges on the way to bus `m` forward requests for the buses up to `U`. -/
def Path : List (Frame σ) → Nat → Nat → Prop
  | [], m, _ => m = 0
  | fr :: C, m, U => ∃ p, Path C p U ∧ p < m ∧ fr.f.secBus = m ∧ U ≤ fr.f.subBus ∧ Below m fr.L

theorem Path.mono {C : List (Frame σ)} {m U V : Nat} (h : Path C m U) (hV : V ≤ U) : Path C m V := by
  induction C generalizing m with
  | nil => exact h
  | cons fr C ih =>
    obtain ⟨p, h1, h2, h3, h4, h5⟩ := h
    exact ⟨p, ih h1, h2, h3, Nat.le_trans hV h4, h5⟩

theorem path_of {C : List (Frame σ)} {m : Nat} (h : CtxOk C m) : Path C m 255 := by
  induction C generalizing m with
  | nil => exact h
  | cons fr C ih =>
    obtain ⟨p, h1, h2, h3, h4, h5, h6⟩ := h
    exact ⟨p, ih h1, h2, h3, by omega, h5⟩

theorem behind_below {n : Nat} {f : Br σ} (h : f.subBus < n) {id : PcieId} (hn : n ≤ id.bus) : ¬ behind f id = true := by
  simp only [behind, decide_eq_true_eq]; omega

theorem first_below {n : Nat} {L : Phys σ} (h : Below n L) (b : Phys σ) (id : PcieId) (hn : n ≤ id.bus) : (L.app b).first false id = b.first false id := by
  induction L with
  | nil => rfl
  | ep d fn f rest ih => rw [app, first, if_neg (by simp), ih (fun p hp => h p hp)]
  | br d fn dsp f child rest _ ih =>
    rw [app, first, if_neg (by simp), if_neg (fun hc => behind_below (h (f, child) (by simp [brsOf])) hn hc.2), ih (fun p hp => h p (by simp [brsOf, hp]))]

theorem replaceAt_below (x : Fn σ) {n : Nat} {L : Phys σ} (h : Below n L) (b : Phys σ) (id : PcieId) (hn : n ≤ id.bus) :
    replaceAt x (L.app b) false id = L.app (replaceAt x b false id) := by
  induction L with
  | nil => rfl
  | ep d fn f rest ih => rw [app, replaceAt, if_neg (by simp), ih (fun p hp => h p hp), app]
  | br d fn dsp f child rest _ ih =>
    rw [app, replaceAt, if_neg (by simp), if_neg (fun hc => behind_below (h (f, child) (by simp [brsOf])) hn hc.2), ih (fun p hp => h p (by simp [brsOf, hp])), app]

theorem path_first {C : List (Frame σ)} {m U : Nat} (h : Path C m U) (b : Phys σ) (id : PcieId) (hm : m ≤ id.bus) (hU : id.bus ≤ U) :
    (plug C b).first (id.bus = 0) id = b.first (id.bus = m) id := by
  induction C generalizing m b with
  | nil => subst h; rfl
  | cons fr C ih =>
    obtain ⟨p, hC, hp, hs, hu, hL⟩ := h
    rw [plug, ih hC _ (by omega), decide_eq_false (show ¬ id.bus = p by omega), first_below hL _ id hm, first, if_neg (by simp), if_pos, hs]
    refine ⟨rfl, ?_⟩
    simp only [behind, hs, decide_eq_true_eq]
    refine ⟨hm, by omega, fun he => ?_⟩
    rw [he] at hm
    simp only at hm
    omega

theorem path_replaceAt (x : Fn σ) {C : List (Frame σ)} {m U : Nat} (h : Path C m U) (b : Phys σ) (id : PcieId) (hm : m ≤ id.bus) (hU : id.bus ≤ U) :
    replaceAt x (plug C b) (id.bus = 0) id = plug C (replaceAt x b (id.bus = m) id) := by
  induction C generalizing m b with
  | nil => subst h; rfl
  | cons fr C ih =>
    obtain ⟨p, hC, hp, hs, hu, hL⟩ := h
    rw [plug, ih hC _ (by omega), decide_eq_false (show ¬ id.bus = p by omega), replaceAt_below x hL _ id hm, replaceAt, if_neg (by simp), if_pos, hs, plug]
    refine ⟨rfl, ?_⟩
    simp only [behind, hs, decide_eq_true_eq]
    refine ⟨hm, by omega, fun he => ?_⟩
    rw [he] at hm
    simp only at hm
    omega

/-- A function on a bus, with the functions after it. -/
def ent (d fn : Nat) : Fn σ → Phys σ → Phys σ → Phys σ
  | .ep f, _, R => .ep d fn f R
  | .br dsp f, c, R => .br d fn dsp f c R

/-- No function on the bus has these numbers. -/
def NoKey (d fn : Nat) (b : Phys σ) : Prop := ∀ e ∈ top b, ¬ (e.1 = d ∧ e.2.1 = fn)

theorem first_nokey {d fn : Nat} {L : Phys σ} (h : NoKey d fn L) (b : Phys σ) (m : Nat) : (L.app b).first true ⟨m, d, fn⟩ = b.first true ⟨m, d, fn⟩ := by
  induction L with
  | nil => rfl
  | ep d' fn' f rest ih =>
    rw [app, first, if_neg (fun hc => h (d', fn', .ep f) (by simp [top]) hc.2), ih (fun e he => h e (by simp [top, he]))]
  | br d' fn' dsp f child rest _ ih =>
    rw [app, first, if_neg (fun hc => h (d', fn', .br dsp f) (by simp [top]) hc.2), if_neg (by simp), ih (fun e he => h e (by simp [top, he]))]

theorem replaceAt_nokey (x : Fn σ) {d fn : Nat} {L : Phys σ} (h : NoKey d fn L) (b : Phys σ) (m : Nat) :
    replaceAt x (L.app b) true ⟨m, d, fn⟩ = L.app (replaceAt x b true ⟨m, d, fn⟩) := by
  induction L with
  | nil => rfl
  | ep d' fn' f rest ih =>
    rw [app, replaceAt, if_neg (fun hc => h (d', fn', .ep f) (by simp [top]) hc.2), ih (fun e he => h e (by simp [top, he])), app]
  | br d' fn' dsp f child rest _ ih =>
    rw [app, replaceAt, if_neg (fun hc => h (d', fn', .br dsp f) (by simp [top]) hc.2), if_neg (by simp), ih (fun e he => h e (by simp [top, he])), app]

theorem first_ent (d fn m : Nat) (x : Fn σ) (c R : Phys σ) : (ent d fn x c R).first true ⟨m, d, fn⟩ = some x := by
  cases x <;> simp [ent, first]

theorem replaceAt_ent (d fn m : Nat) (x x' : Fn σ) (hk : x'.kind = x.kind) (c R : Phys σ) :
    replaceAt x' (ent d fn x c R) true ⟨m, d, fn⟩ = ent d fn x' c R := by
  cases x with
  | ep f => cases x' with
    | ep f' => simp [ent, replaceAt, Ep.replacedBy]
    | br dsp f' => cases hk
  | br dsp f => cases x' with
    | ep f' => cases hk
    | br dsp' f' => cases hk; simp [ent, replaceAt, Br.replacedBy]

/-- The function with the numbers `d` and `fn` on bus `m`. -/
theorem path_ent {C : List (Frame σ)} {m U : Nat} (h : Path C m U) (hU : m ≤ U) {d fn : Nat} {L : Phys σ} (hk : NoKey d fn L) (x : Fn σ) (c R : Phys σ) :
    (plug C (L.app (ent d fn x c R))).first (m = 0) ⟨m, d, fn⟩ = some x ∧
    ∀ x' : Fn σ, x'.kind = x.kind → replaceAt x' (plug C (L.app (ent d fn x c R))) (m = 0) ⟨m, d, fn⟩ = plug C (L.app (ent d fn x' c R)) := by
  have h1 := path_first h (L.app (ent d fn x c R)) ⟨m, d, fn⟩ (Nat.le_refl _) hU
  simp only [decide_true] at h1
  refine ⟨by rw [h1, first_nokey hk, first_ent], fun x' hx => ?_⟩
  have h2 := path_replaceAt x' h (L.app (ent d fn x c R)) ⟨m, d, fn⟩ (Nat.le_refl _) hU
  simp only [decide_true] at h2
  rw [h2, replaceAt_nokey x' hk, replaceAt_ent d fn m x x' hx]

section
variable {ops : CapOps σ} {tag : Tlp → Nat} {host : BrFn σ}

/-- A program for one function. -/
theorem Tr.local (hh : CfgHost host) {C : List (Frame σ)} {m U : Nat} (h : Path C m U) (hU : m ≤ U) {d fn : Nat} {L : Phys σ} (hk : NoKey d fn L)
    (hi : CfgId ⟨m, d, fn⟩) {x x' : Fn σ} {c R : Phys σ} {α : Type} {p : CfgProg α} {a : α} (hp : p.onFn ops tag ⟨m, d, fn⟩ x = .ok (x', a))
    {S : PcieId → Prop} : Tr ops tag host p (plug C (L.app (ent d fn x c R))) S a (plug C (L.app (ent d fn x' c R))) S := by
  obtain ⟨h1, h2⟩ := path_ent h hU hk x c R
  obtain ⟨t, e1, e2⟩ := Tr.onFn hh hi h1 hp (S := S)
  rw [h2 x' e1] at t
  exact t

/-- Reading a dword register. -/
theorem Tr.readD (hh : CfgHost host) {id : PcieId} (hi : CfgId id) {b : Phys σ} {x : Fn σ} (hx : b.first (id.bus = 0) id = some x) {r : Nat}
    (hr : x.read ops r < 2 ^ 32) {S : PcieId → Prop} :
    Tr ops tag host (Host.readDword id (4 * r)) b S (x.read ops r) b (fun id' => S id' ∨ id' = id) := by
  have h1 := Tr.rd (tag := tag) hh hi hx (addr := 4 * r) (len := 4) (by omega) (fun a h1 h2 => by rw [show a / 4 = r by omega]; exact hr) (S := S)
  have h2 := Tr.bind (f := fun d => CfgProg.ret (fromBytes d .little)) h1 Tr.ret
  have h3 := readDword_on (tag := tag) id x hr
  unfold Host.readDword at h3 ⊢
  rw [CfgProg.onFn, if_pos ⟨rfl, by omega, by omega, by rw [show 4 * r / 4 = r by omega]; exact hr⟩, CfgProg.onFn] at h3
  have h4 := congrArg Prod.snd (Except.ok.inj h3)
  simp only at h4
  rw [← h4]
  exact h2

/-- Reading a register of a function that does not exist. -/
theorem Tr.readNone (hh : CfgHost host) {id : PcieId} (hi : CfgId id) {b : Phys σ} (hx : b.first (id.bus = 0) id = none) (r : Nat)
    {S : PcieId → Prop} : Tr ops tag host (Host.readDword id (4 * r)) b S 0xffffffff b S := by
  have h1 := Tr.rdNone (ops := ops) (tag := tag) hh hi hx (4 * r) 4 (S := S)
  exact Tr.bind (f := fun d => CfgProg.ret (fromBytes d .little)) h1 Tr.ret

end

end Pcie
