import Verif.Lemmas.MsiRun
namespace Pcie
open Spec

/-! ### All functions together -/

structure SysInv (hist : List IrqOp) (s : IrqSys) : Prop where
  base : s.region.base = 0x80000000
  dict : ∀ d i, s.region.vectors d = some i → d < s.region.limit ∧ i < s.region.nextId
  vecs : ∀ f, ∃ b, ∀ (n : Nat) v, (s.fns f).vecs[n]? = some v →
    v.addr = s.region.base ∧ v.data = b + n ∧ s.region.vectors v.data = some v.id
  ids : ∀ f g (m n : Nat) v w, (s.fns f).vecs[m]? = some v → (s.fns g).vecs[n]? = some w → v.id = w.id → f = g ∧ m = n
  cbs : ∀ f (n : Nat) v, (s.fns f).vecs[n]? = some v → s.cbs v.id = handlers hist f n
  nocb : ∀ f (n : Nat), (s.fns f).vecs[n]? = none → handlers hist f n = []
  fresh : ∀ i, s.region.nextId ≤ i → s.cbs i = []
  fns : ∀ f, FnOk (s.fns f)

theorem SysInv.atBase {hist : List IrqOp} {s : IrqSys} (h : SysInv hist s) (f : Nat) : AtBase s.region (s.fns f) := by
  intro v hv
  obtain ⟨n, hn⟩ := List.getElem?_of_mem hv
  obtain ⟨b, hb⟩ := h.vecs f
  exact (hb n v hn).1

theorem SysInv.idLt {hist : List IrqOp} {s : IrqSys} (h : SysInv hist s) {f n : Nat} {v : MsiVec} (hv : (s.fns f).vecs[n]? = some v) :
    v.id < s.region.nextId := by
  obtain ⟨b, hb⟩ := h.vecs f
  exact (h.dict _ _ (hb n v hv).2.2).2

theorem handlers_append (ops : List IrqOp) (op : IrqOp) (f n : Nat) : handlers (ops ++ [op]) f n = handlers ops f n ++
    (match op with | .request f' n' h => if f' = f ∧ n' = n then [h] else [] | _ => []) := by
  simp only [handlers, List.filterMap_append]
  congr 1
  cases op <;> simp [List.filterMap]
  rename_i f' n' h
  by_cases hc : f' = f ∧ n' = n <;> simp [hc]

/-- An allocation without an owner. -/
theorem sysInv_alloc {hist : List IrqOp} {s : IrqSys} (h : SysInv hist s) (num : Nat) :
    SysInv hist { s with region := (s.region.alloc num).2 } := by
  have hv : ∀ d i, s.region.vectors d = some i → (s.region.alloc num).2.vectors d = some i := by
    intro d i hd
    rw [alloc_vectors, if_neg (by have := h.dict d i hd; omega)]; exact hd
  refine ⟨by rw [alloc_base]; exact h.base, ?_, ?_, h.ids, h.cbs, h.nocb, ?_, h.fns⟩
  · intro d i hd
    simp only at hd ⊢
    rw [alloc_vectors] at hd
    rw [alloc_limit, alloc_nextId]
    split at hd
    · cases hd; omega
    · have := h.dict d i hd; omega
  · intro f
    obtain ⟨b, hb⟩ := h.vecs f
    refine ⟨b, fun n v hn => ?_⟩
    obtain ⟨h1, h2, h3⟩ := hb n v hn
    exact ⟨by simp only; rw [alloc_base]; exact h1, h2, hv _ _ h3⟩
  · intro i hi
    simp only [alloc_nextId] at hi
    exact h.fresh i (by omega)

theorem sysInv_step {hist : List IrqOp} {s : IrqSys} (h : SysInv hist s) {f : Nat} {r' : MsiRegion} {x : IrqFn}
    (hs : FnStep s.region (s.fns f) r' x) (hx : FnOk x) : SysInv hist (s.setFn f (r', x)) := by
  rcases hs.vecs with ⟨rfl, e⟩ | ⟨e0, num, rfl, e, _⟩
  · have hv : ∀ g, ((s.setFn f (s.region, x)).fns g).vecs = (s.fns g).vecs := by
      intro g; simp only [IrqSys.setFn]; split
      · rename_i hg; subst hg; exact e
      · rfl
    refine ⟨h.base, h.dict, ?_, ?_, ?_, ?_, h.fresh, ?_⟩
    · intro g; simp only [hv]; exact h.vecs g
    · intro f g; simp only [hv]; exact h.ids f g
    · intro g; simp only [hv]; exact h.cbs g
    · intro g; simp only [hv]; exact h.nocb g
    · intro g
      simp only [IrqSys.setFn]; split
      · exact hx
      · exact h.fns g
  · have ha := sysInv_alloc h num
    have hf : ((s.setFn f ((s.region.alloc num).2, x)).fns f).vecs = (s.region.alloc num).1 := by
      simp only [IrqSys.setFn, if_true]; exact e
    have hne : ∀ g, g ≠ f → (s.setFn f ((s.region.alloc num).2, x)).fns g = s.fns g := by
      intro g hg; simp only [IrqSys.setFn, if_neg hg]
    refine ⟨ha.base, ha.dict, ?_, ?_, ?_, ?_, ha.fresh, ?_⟩
    · intro g
      by_cases hg : g = f
      · subst hg
        refine ⟨s.region.limit, fun n v hn => ?_⟩
        rw [hf] at hn
        obtain ⟨hn1, rfl⟩ := alloc_get hn
        refine ⟨?_, rfl, ?_⟩
        · simp only [IrqSys.setFn]; rw [alloc_base]
        · simp only [IrqSys.setFn]
          rw [alloc_vectors, if_pos (by omega)]; congr 1; omega
      · rw [hne g hg]; exact ha.vecs g
    · intro f1 g1 m n v w hv hw hid
      by_cases h1 : f1 = f <;> by_cases h2 : g1 = f
      · subst h1; subst h2
        rw [hf] at hv hw
        obtain ⟨_, rfl⟩ := alloc_get hv
        obtain ⟨_, rfl⟩ := alloc_get hw
        simp only at hid
        exact ⟨rfl, by omega⟩
      · subst h1
        rw [hf] at hv
        rw [hne g1 h2] at hw
        obtain ⟨_, rfl⟩ := alloc_get hv
        have := h.idLt hw
        simp only at hid
        omega
      · subst h2
        rw [hf] at hw
        rw [hne f1 h1] at hv
        obtain ⟨_, rfl⟩ := alloc_get hw
        have := h.idLt hv
        simp only at hid
        omega
      · rw [hne f1 h1] at hv
        rw [hne g1 h2] at hw
        exact h.ids f1 g1 m n v w hv hw hid
    · intro g n v hv
      by_cases hg : g = f
      · subst hg
        rw [hf] at hv
        obtain ⟨_, rfl⟩ := alloc_get hv
        have h1 := h.nocb g n (by rw [e0]; rfl)
        rw [h1]
        exact h.fresh _ (by simp only; omega)
      · rw [hne g hg] at hv; exact h.cbs g n v hv
    · intro g n hv
      by_cases hg : g = f
      · subst hg; exact h.nocb g n (by rw [e0]; rfl)
      · rw [hne g hg] at hv; exact h.nocb g n hv
    · intro g
      by_cases hg : g = f
      · subst hg; simp only [IrqSys.setFn, if_true]; exact hx
      · rw [hne g hg]; exact h.fns g

/-- The history only matters through the registered handlers. -/
theorem SysInv.hist {hist hist' : List IrqOp} {s : IrqSys} (h : SysInv hist s) (he : ∀ f n, handlers hist' f n = handlers hist f n) :
    SysInv hist' s :=
  ⟨h.base, h.dict, h.vecs, h.ids, fun f n v hv => by rw [he]; exact h.cbs f n v hv, fun f n hv => by rw [he]; exact h.nocb f n hv, h.fresh, h.fns⟩

/-- What a call does with the vectors of the functions. -/
inductive VecStep (op : IrqOp) (s s' : IrqSys) : Prop where
  | none (h : s'.region = s.region) (h' : s'.fns = s.fns)
  | alloc (num : Nat) (he : op = .alloc num) (h : s'.region = (s.region.alloc num).2) (h' : s'.fns = s.fns)
  | fn (f : Nat) (h : FnStep s.region (s.fns f) s'.region (s'.fns f)) (h' : ∀ g, g ≠ f → s'.fns g = s.fns g)

theorem run_step {hist : List IrqOp} {s s' : IrqSys} (h : SysInv hist s) {op : IrqOp} (hr : s.run op = .ok s') :
    SysInv (hist ++ [op]) s' ∧ VecStep op s s' := by
  have hlt : s.region.base < 2 ^ 32 := by rw [h.base]; decide
  have h4 : s.region.base % 4 = 0 := by rw [h.base]
  constructor
  all_goals
    cases op with
    | alloc num =>
      cases hr
      first
        | exact (sysInv_alloc h num).hist (fun f n => by rw [handlers_append]; simp)
        | exact .alloc num rfl rfl rfl
    | enableMsi f lo hi =>
      simp only [IrqSys.run] at hr
      cases hp : (s.fns f).enableMsi s.region lo hi with
      | error e => rw [hp, error_bind] at hr; cases hr
      | ok p =>
        rw [hp, ok_bind] at hr
        cases hr
        obtain ⟨k1, k2⟩ := enableMsi_ok hlt h4 (h.atBase f) (h.fns f) hp
        first
          | exact (sysInv_step h k1 k2).hist (fun f n => by rw [handlers_append]; simp)
          | exact .fn f (by simpa [IrqSys.setFn] using k1) (fun g hg => by simp [IrqSys.setFn, hg])
    | enableMsix f lo hi =>
      simp only [IrqSys.run] at hr
      cases hp : (s.fns f).enableMsix s.region lo hi with
      | error e => rw [hp, error_bind] at hr; cases hr
      | ok p =>
        rw [hp, ok_bind] at hr
        cases hr
        obtain ⟨k1, k2⟩ := enableMsix_ok (h.fns f) hp
        first
          | exact (sysInv_step h k1 k2).hist (fun f n => by rw [handlers_append]; simp)
          | exact .fn f (by simpa [IrqSys.setFn] using k1) (fun g hg => by simp [IrqSys.setFn, hg])
    | allocIrq f lo hi =>
      simp only [IrqSys.run] at hr
      cases hp : (s.fns f).allocIrq s.region lo hi with
      | error e => rw [hp, error_bind] at hr; cases hr
      | ok p =>
        rw [hp, ok_bind] at hr
        cases hr
        obtain ⟨k1, k2⟩ := allocIrq_ok hlt h4 (h.atBase f) (h.fns f) hp
        first
          | exact (sysInv_step h k1 k2).hist (fun f n => by rw [handlers_append]; simp)
          | exact .fn f (by simpa [IrqSys.setFn] using k1) (fun g hg => by simp [IrqSys.setFn, hg])
    | freeIrq f =>
      cases hr
      obtain ⟨k1, k2⟩ := disableMsi_ok s.region (h.fns f)
      obtain ⟨k3, k4⟩ := disableMsix_ok s.region k2
      first
        | exact (sysInv_step h (k1.trans k3) k4).hist (fun f n => by rw [handlers_append]; simp)
        | exact .fn f (by simpa [IrqSys.setFn] using k1.trans k3) (fun g hg => by simp [IrqSys.setFn, hg])
    | request f nr hd =>
      simp only [IrqSys.run] at hr
      cases hv : (s.fns f).vecs[nr]? with
      | none => rw [hv] at hr; cases hr
      | some v =>
        rw [hv] at hr
        cases hr
        first
          | exact .none rfl rfl
          | (refine ⟨h.base, h.dict, h.vecs, h.ids, ?_, ?_, ?_, h.fns⟩
             · intro g n w hw
               rw [handlers_append]
               simp only
               by_cases hid : w.id = v.id
               · obtain ⟨e1, e2⟩ := h.ids g f n nr w v hw hv hid
                 subst e1; subst e2
                 rw [if_pos hid, if_pos ⟨rfl, rfl⟩, h.cbs _ _ w hw]
               · have hne : ¬ (f = g ∧ nr = n) := by
                   rintro ⟨rfl, rfl⟩
                   rw [hv] at hw; cases hw; exact hid rfl
                 rw [if_neg hid, if_neg hne, h.cbs g n w hw]; simp
             · intro g n hw
               rw [handlers_append]
               simp only
               have hne : ¬ (f = g ∧ nr = n) := by
                 rintro ⟨rfl, rfl⟩
                 rw [hv] at hw; cases hw
               rw [if_neg hne, h.nocb g n hw]; rfl
             · intro i hi
               have := h.idLt hv
               simp only at hi ⊢
               rw [if_neg (by omega)]; exact h.fresh i hi)

theorem sysInv_new {s : IrqSys} (h : NewSys s) : SysInv [] s := by
  have hv : ∀ f (n : Nat), (s.fns f).vecs[n]? = none := fun f n => by rw [(h.fns f).1]; rfl
  refine ⟨by rw [h.region], by rw [h.region]; simp, ?_, ?_, ?_, fun _ _ _ => rfl, by rw [h.cbs]; simp, ?_⟩
  · intro f; exact ⟨0, fun n v hn => by rw [hv] at hn; cases hn⟩
  · intro f g m n v w hn; rw [hv] at hn; cases hn
  · intro f n v hn; rw [hv] at hn; cases hn
  · intro f
    refine ⟨fun c hc => ?_, fun c hc he => ?_⟩
    · obtain ⟨h1, h2, _⟩ := h.msi f c hc
      rw [h1, h2]
      exact ⟨Nat.two_pow_pos _, by simp⟩
    · rw [h.msix f c hc] at he; simp at he

theorem run_all (ops : List IrqOp) : ∀ (hist : List IrqOp) {s s' : IrqSys}, SysInv hist s → ops.foldlM IrqSys.run s = .ok s' →
    SysInv (hist ++ ops) s' := by
  induction ops with
  | nil => intro hist s s' h hr; cases hr; simpa using h
  | cons op ops ih =>
    intro hist s s' h hr
    rw [List.foldlM_cons] at hr
    cases h1 : s.run op with
    | error e => rw [h1] at hr; cases hr
    | ok s1 =>
      rw [h1] at hr
      have := ih (hist ++ [op]) (run_step h h1).1 hr
      simpa using this

/-! ### Alignment -/

/-- Vectors come in blocks of 32, and blocks start at multiples of 32. -/
structure Al (s : IrqSys) : Prop where
  limit : s.region.limit % 32 = 0
  vecs : ∀ f v rest, (s.fns f).vecs = v :: rest → v.data % 32 = 0 ∧ 32 ≤ (s.fns f).vecs.length
  size : ∀ f c, (s.fns f).msix = some c → (c.tableSize % 2048 + 1) % 32 = 0

theorem al_step {hist : List IrqOp} {s s' : IrqSys} (h : SysInv hist s) (ha : Al s) {op : IrqOp} (hr : s.run op = .ok s')
    (hop : ∀ n, op = .alloc n → n % 32 = 0) : Al s' := by
  have hlim : ∀ num, num % 32 = 0 → (s.region.alloc num).2.limit % 32 = 0 := by
    intro num hn; rw [alloc_limit]; have := ha.limit; omega
  have key : ∀ f, FnStep s.region (s.fns f) s'.region (s'.fns f) → (∀ g, g ≠ f → s'.fns g = s.fns g) → Al s' := by
    intro f k kn
    have hsz : ∀ c, (s.fns f).msix = some c → (c.tableSize % 2048 + 1) % 32 = 0 := ha.size f
    refine ⟨?_, ?_, ?_⟩
    · rcases k.vecs with ⟨e, _⟩ | ⟨_, num, e, _, e3⟩
      · rw [e]; exact ha.limit
      · rw [e]; apply hlim
        rcases e3 with e3 | ⟨c, hc, e3⟩
        · rw [e3]
        · rw [e3]; exact hsz c hc
    · intro g v rest hv
      by_cases hg : g = f
      · subst hg
        rcases k.vecs with ⟨_, e⟩ | ⟨_, num, _, e, e3⟩
        · rw [e] at hv ⊢; exact ha.vecs g v rest hv
        · have h0 : (s.region.alloc num).1[0]? = some v := by rw [← e, hv]; rfl
          obtain ⟨h01, rfl⟩ := alloc_get h0
          rw [e, alloc_vecs]
          simp only [Nat.add_zero, List.length_map, List.length_range]
          refine ⟨ha.limit, ?_⟩
          rcases e3 with e3 | ⟨c, hc, e3⟩
          · omega
          · have := hsz c hc; omega
      · rw [kn g hg] at hv ⊢; exact ha.vecs g v rest hv
    · intro g c hc
      by_cases hg : g = f
      · subst hg
        have := k.static
        rw [hc] at this
        cases hf : (s.fns g).msix with
        | none => rw [hf] at this; simp at this
        | some c0 => rw [hf] at this; simp at this; rw [this]; exact hsz c0 hf
      · rw [kn g hg] at hc; exact ha.size g c hc
  cases (run_step h hr).2 with
  | none e e' => exact ⟨by rw [e]; exact ha.limit, by rw [e']; exact ha.vecs, by rw [e']; exact ha.size⟩
  | fn f k kn => exact key f k kn
  | alloc num he e e' => exact ⟨by rw [e]; exact hlim num (hop num he), by rw [e']; exact ha.vecs, by rw [e']; exact ha.size⟩

theorem al_all (ops : List IrqOp) : ∀ (hist : List IrqOp) {s s' : IrqSys}, SysInv hist s → Al s → ops.foldlM IrqSys.run s = .ok s' →
    (∀ n, IrqOp.alloc n ∈ ops → n % 32 = 0) → Al s' := by
  induction ops with
  | nil => intro hist s s' _ h hr _; cases hr; exact h
  | cons op ops ih =>
    intro hist s s' hi h hr ho
    rw [List.foldlM_cons] at hr
    cases h1 : s.run op with
    | error e => rw [h1] at hr; cases hr
    | ok s1 =>
      rw [h1] at hr
      exact ih (hist ++ [op]) (run_step hi h1).1 (al_step hi h h1 fun n e => ho n (by simp [e])) hr (fun n hn => ho n (by simp [hn]))

theorem al_new {s : IrqSys} (h : NewSys s) (hs : ∀ f c, (s.fns f).msix = some c → (c.tableSize % 2048 + 1) % 32 = 0) : Al s :=
  ⟨by rw [h.region]; rfl, fun f v rest hv => (by rw [(h.fns f).1] at hv; cases hv), hs⟩

/-! ### Delivery -/

theorem deliver_ok {hist : List IrqOp} {s : IrqSys} (h : SysInv hist s) {f n : Nat} {v : MsiVec} (hv : (s.fns f).vecs[n]? = some v) :
    s.deliver (s.region.base, v.data) = .ok (handlers hist f n) := by
  obtain ⟨b, hb⟩ := h.vecs f
  simp only [IrqSys.deliver]
  rw [if_neg (by omega)]
  simp only [Nat.sub_self, MsiRegion.write, (hb n v hv).2.2]
  rw [← h.cbs f n v hv]
  rfl

theorem or_low {d n k : Nat} (hd : d % 2 ^ k = 0) (hn : n < 2 ^ k) : andNot d (2 ^ k - 1) ||| n = d + n := by
  have h1 : andNot d (2 ^ k - 1) = d := by
    apply Nat.eq_of_testBit_eq
    intro i
    rw [tb_andNot, Nat.testBit_two_pow_sub_one]
    by_cases hi : i < k
    · have : (d % 2 ^ k).testBit i = d.testBit i := by rw [Nat.testBit_mod_two_pow]; simp [hi]
      rw [hd] at this; simp at this; simp [this]
    · simp [hi]
  rw [h1]
  obtain ⟨q, hq⟩ := Nat.dvd_of_mod_eq_zero hd
  rw [hq, ← Nat.two_pow_add_eq_or_of_lt hn]

end Pcie
