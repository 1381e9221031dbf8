import Verif.Spec.ConcLive
import Verif.Lemmas.Conc
namespace Pcie
open Spec
namespace Conc

variable {σ : Type}

theorem sum_mono {α : Type} {f g : α → Nat} : ∀ {l : List α}, (∀ j ∈ l, f j ≤ g j) → (l.map f).sum ≤ (l.map g).sum
  | [], _ => Nat.le_refl _
  | x :: l, h => by
    have h1 := h x (by simp)
    have h2 := sum_mono (l := l) (fun j hj => h j (by simp [hj]))
    simp only [List.map_cons, List.sum_cons]; omega

theorem sum_strict {α : Type} {f g : α → Nat} {i : α} : ∀ {l : List α}, (∀ j ∈ l, f j ≤ g j) → i ∈ l → f i < g i → (l.map f).sum < (l.map g).sum
  | x :: l, h, hi, hlt => by
    have h1 := h x (by simp)
    have h2 := sum_mono (l := l) (fun j hj => h j (by simp [hj]))
    simp only [List.map_cons, List.sum_cons]
    rcases List.mem_cons.mp hi with rfl | hi
    · omega
    · have := sum_strict (l := l) (fun j hj => h j (by simp [hj])) hi hlt
      omega

/-- The number of completions for a read is at most the number of dwords. -/
theorem legal_count {M : Mem} {rcb mps addr r : Nat} {cpls : List Tlp} (h : LegalCpls M rcb mps addr r cpls) : 4 * cpls.length ≤ addr % 4 + r + 3 := by
  induction h with
  | last addr r c h0 => simp only [List.length_cons, List.length_nil]; omega
  | more addr r c rest _ _ _ _ hl hgt _ _ _ _ ih => simp only [List.length_cons]; omega

theorem reads_count {k : Nat} {t : Tlp} {first n : Nat} {M : Mem} {rcb mps : Nat} {cpls : List Tlp} (ht : ReadOk k t) (hr : ReadsBytes t first n)
    (h : LegalCpls M rcb mps first n cpls) : cpls.length ≤ 1024 := by
  obtain ⟨_, _, last, hf, hl, rfl⟩ := hr
  have h1 := legal_count h
  have h2 := hf.1.1
  have h3 := hl.1.2.1
  have h4 := ht.aligned
  have h5 := ht.length_le
  have h6 := hf.2
  omega

/-- What is left to happen for operation `i`. -/
def togo (s : Conc σ) (i : Nat) : Nat :=
  if i ∈ s.unsent then 2050
  else if i ∈ s.served then ((s.ops.net[i]?).map List.length).getD 0 + ((s.ops.ops[i]?).map fun o => o.answers.length - o.got.length).getD 0
  else 2049

def posted (s : Conc σ) : Nat := s.link.countP fun x => x.1.isNone

def left (s : Conc σ) : Nat := ((List.range s.ops.ops.length).map s.togo).sum + s.posted

/-- Every operation is somewhere, and every tag in use belongs to an operation. -/
structure J (s : Conc σ) : Prop where
  all : ∀ i, i < s.ops.ops.length → i ∈ s.nums
  held : ∀ t, s.ops.pool.active.getD t false = true → ∃ (i : Nat) (o : Op), s.ops.ops[i]? = some o ∧ o.finished = false ∧ o.tag = t

theorem left_lt {s s' : Conc σ} (hl : s'.ops.ops.length = s.ops.ops.length) {i : Nat} (hi : i < s.ops.ops.length) (hs : ∀ j, j ≠ i → s'.togo j = s.togo j)
    (hd : s'.togo i < s.togo i) (hp : s'.posted ≤ s.posted) : s'.left < s.left := by
  unfold left
  rw [hl]
  have : ((List.range s.ops.ops.length).map s'.togo).sum < ((List.range s.ops.ops.length).map s.togo).sum := by
    refine sum_strict (i := i) (fun j _ => ?_) (List.mem_range.mpr hi) hd
    by_cases hj : j = i
    · subst hj; exact Nat.le_of_lt hd
    · exact Nat.le_of_eq (hs j hj)
  omega

theorem nums_split {s : Conc σ} (h : s.nums.Nodup) (i : Nat) : (i ∈ s.unsent → i ∉ s.served) ∧ (i ∈ s.link.filterMap (·.1) → i ∉ s.unsent ∧ i ∉ s.served) := by
  unfold nums at h
  rw [List.nodup_append] at h
  obtain ⟨h1, _, h3⟩ := h
  rw [List.nodup_append] at h1
  refine ⟨fun a b => h3 i (by simp [a]) i b rfl, fun a => ⟨fun b => h1.2.2 i b i a rfl, fun b => h3 i (by rw [List.mem_append]; exact .inr a) i b rfl⟩⟩

/-- Before the request of an operation is handled, nothing has come for it. -/
theorem unserved_queue {view : σ → Mem} {Good : σ → Prop} {rid : PcieId} {lo hi : Nat} {m0 : Mem} {s : Conc σ} (h : I view Good rid lo hi m0 s) {i : Nat} {o : Op} (ho : s.ops.ops[i]? = some o)
    (hf : o.finished = false) (hi : i ∉ s.served) : s.ops.queue o.tag = [] := by
  have hlo : (lift s.served s.ops).ops[i]? = some (liftOp s.served i o) := by rw [lift_get, ho]; rfl
  obtain ⟨_, ⟨n, l2, l2'⟩, _, _⟩ := h.ops.live i _ hlo (by rw [(liftOp_same _ _ _).2.2.1]; exact hf)
  rw [lift_net, h.idle i o ho hi] at l2
  simp only [Option.map_some, liftNet, if_neg hi, Option.some.injEq] at l2
  subst l2
  rw [(liftOp_same _ _ _).2.1, (liftOp_same _ _ _).2.2.2] at l2'
  have ha : (liftOp s.served i o).answers = [dummy] := by unfold liftOp; rw [if_neg hi]
  rw [ha] at l2'
  have := congrArg List.length l2'
  simp only [List.length_append, List.length_cons, List.length_nil, List.length_map] at this
  have hq : (lift s.served s.ops).queue = s.ops.queue := rfl
  rw [hq] at this
  exact List.eq_nil_of_length_eq_zero (by omega)

theorem served_live {view : σ → Mem} {Good : σ → Prop} {rid : PcieId} {lo hi : Nat} {m0 : Mem} {s : Conc σ} (h : I view Good rid lo hi m0 s) {i : Nat} {o : Op} (ho : s.ops.ops[i]? = some o)
    (hf : o.finished = false) (hi : i ∈ s.served) :
    CompleteAnswer o.req o.answers ∧ (∀ c ∈ o.got, Op.ends o.req c.2 = false) ∧ ∃ n, s.ops.net[i]? = some n ∧ o.answers = o.got.map (·.2) ++ (s.ops.queue o.tag).map (·.2) ++ n := by
  have he : liftOp s.served i o = o := if_pos hi
  have hlo : (lift s.served s.ops).ops[i]? = some o := by rw [lift_get, ho, Option.map_some, he]
  obtain ⟨_, ⟨n, l2, l2'⟩, _, l4⟩ := h.ops.live i _ hlo hf
  rw [lift_net] at l2
  cases hn : s.ops.net[i]? with
  | none => rw [hn] at l2; cases l2
  | some n' =>
    rw [hn] at l2
    simp only [Option.map_some, liftNet, if_pos hi, Option.some.injEq] at l2
    subst l2
    exact ⟨(h.ops.complete i o hlo).1, fun c hc => (l4 c hc).2, _, rfl, l2'⟩

/-- Whatever happens without the tasks brings them nearer to their end. -/
theorem happens_less {C : Completer σ} {view : σ → Mem} {Good : σ → Prop} {rid : PcieId} {lo hi : Nat} (hC : ServesMem C view Good rid lo hi) {m0 : Mem} {s s' : Conc σ} (h : I view Good rid lo hi m0 s)
    {e : ConcEv σ} (he : Happens C s e s') : s'.left < s.left := by
  obtain ⟨hw, hs, hne⟩ := he
  cases e with
  | start t n => cases hw
  | post t => cases hw
  | other m => cases hw
  | send i =>
    simp only [step] at hs
    cases ho : s.ops.ops[i]? with
    | none => rw [ho] at hs; cases hs
    | some o =>
      rw [ho] at hs
      simp only at hs
      split at hs
      · rename_i hi
        cases hs
        have hlt : i < s.ops.ops.length := (List.getElem?_eq_some_iff.mp ho).1
        have hnd : s.unsent.Nodup := by have := h.nodup; unfold nums at this; exact (List.nodup_append.mp (List.nodup_append.mp this).1).1
        refine left_lt rfl hlt ?_ ?_ ?_
        · intro j hj
          simp only [togo, hnd.mem_erase_iff, ne_eq, hj, not_false_eq_true, true_and]
        · simp only [togo, hnd.mem_erase_iff, ne_eq, not_true_eq_false, false_and, if_false, if_pos hi, if_neg ((nums_split h.nodup i).1 hi)]
          omega
        · simp [posted]
      · cases hs
  | handle =>
    simp only [step] at hs
    cases hl : s.link with
    | nil => rw [hl] at hs; cases hs
    | cons x rest =>
      obtain ⟨j, t⟩ := x
      rw [hl] at hs
      cases j with
      | none =>
        simp only at hs
        split at hs <;> cases hs
        have : s.posted = (rest.countP fun x => x.1.isNone) + 1 := by simp [posted, hl]
        show ((List.range s.ops.ops.length).map s.togo).sum + (rest.countP fun x => x.1.isNone) < s.left
        unfold left
        omega
      | some i =>
        simp only at hs
        split at hs
        · cases hs
        rename_i ans hans
        cases hs
        obtain ⟨o, ho, ht⟩ := h.linkR i t (by rw [hl]; simp)
        have hlt : i < s.ops.ops.length := (List.getElem?_eq_some_iff.mp ho).1
        obtain ⟨hu, hsv⟩ := (nums_split h.nodup i).2 (by rw [hl]; simp)
        have hcount : ans.length ≤ 1024 := by
          obtain ⟨⟨k, hk⟩, hb, h1, h2, h2'⟩ := (h.req i o ho).tag (tag_lt h ho)
          rw [← ht] at hk hb h1 h2 h2'
          obtain ⟨first, n, hr⟩ := reads_some hk hb
          obtain ⟨cpls, rcb, mps, e1, e2⟩ := hC.read s.mem t k first n h.good hk hr h1 h2 h2'
          cases hans.symm.trans e1
          exact reads_count hk hr e2
        refine left_lt (by simp [answer]) hlt ?_ ?_ ?_
        · intro j hj
          simp only [togo, answer, List.mem_append, List.mem_singleton, hj, or_false, List.getElem?_set, List.getElem?_modify]
          simp only [if_neg (fun x : i = j => hj x.symm)]
          cases s.ops.ops[j]? <;> simp
        · simp only [togo, if_neg hu, if_neg hsv, answer, List.mem_append, List.mem_singleton, or_true, if_true, List.getElem?_set, List.getElem?_modify, ho]
          by_cases hn : i < s.ops.net.length
          · simp [hn]; omega
          · simp [hn]; omega
        · simp [posted, hl]
  | arrive i =>
    simp only [step, Ops.step] at hs
    cases ho : s.ops.ops[i]? with
    | none => rw [ho] at hs; cases hs; exact absurd rfl hne
    | some o =>
      cases hn : s.ops.net[i]? with
      | none => rw [ho, hn] at hs; cases hs; exact absurd rfl hne
      | some l =>
        cases l with
        | nil => rw [ho, hn] at hs; cases hs; exact absurd rfl hne
        | cons c rest =>
          rw [ho, hn] at hs
          cases hs
          have hlt : i < s.ops.ops.length := (List.getElem?_eq_some_iff.mp ho).1
          have hnl : i < s.ops.net.length := (List.getElem?_eq_some_iff.mp hn).1
          have hsv : i ∈ s.served := by
            by_cases hsv : i ∈ s.served
            · exact hsv
            · have := h.idle i o ho hsv; rw [hn] at this; cases this
          have hu : i ∉ s.unsent := fun hu => (nums_split h.nodup i).1 hu hsv
          refine left_lt rfl hlt ?_ ?_ (Nat.le_refl _)
          · intro j hj
            simp only [togo, List.getElem?_set, if_neg (fun x : i = j => hj x.symm)]
          · simp only [togo, if_neg hu, if_pos hsv, List.getElem?_set, if_true, hnl, ho, hn, Option.map_some, Option.getD_some, List.length_cons]
            omega
  | recv i =>
    simp only [step, Ops.step] at hs
    cases ho : s.ops.ops[i]? with
    | none => rw [ho] at hs; cases hs; exact absurd rfl hne
    | some o =>
      rw [ho] at hs
      simp only at hs
      cases hf : o.finished with
      | true => rw [hf] at hs; cases hs; exact absurd rfl hne
      | false =>
        rw [hf] at hs
        simp only [Bool.false_eq_true, if_false] at hs
        cases hq : s.ops.queue o.tag with
        | nil => rw [hq] at hs; cases hs; exact absurd rfl hne
        | cons c rest =>
          have hlt : i < s.ops.ops.length := (List.getElem?_eq_some_iff.mp ho).1
          have hsv : i ∈ s.served := by
            by_cases hsv : i ∈ s.served
            · exact hsv
            · have := unserved_queue h ho hf hsv; rw [hq] at this; cases this
          have hu : i ∉ s.unsent := fun hu => (nums_split h.nodup i).1 hu hsv
          obtain ⟨_, _, n, _, hsp⟩ := served_live h ho hf hsv
          have hlen : o.got.length < o.answers.length := by
            rw [hsp, hq]; simp
          have key : ∀ (o' : Op) (ops : Ops), ops.ops = s.ops.ops.set i o' → ops.net = s.ops.net → o'.answers = o.answers → o'.got.length = o.got.length + 1 →
              ({ s with ops := ops } : Conc σ).left < s.left := by
            intro o' ops h1 h2 h3 h4
            refine left_lt (by simp [h1]) hlt ?_ ?_ (Nat.le_refl _)
            · intro j hj
              simp only [togo, h1, h2, List.getElem?_set, if_neg (fun x : i = j => hj x.symm)]
            · simp only [togo, if_neg hu, if_pos hsv, h1, h2, List.getElem?_set, if_true, hlt, ho, Option.map_some, Option.getD_some, h3, h4]
              omega
          rw [hq] at hs
          simp only at hs
          by_cases hend : Op.ends o.req c.2 = true
          · simp only [hend, if_true] at hs
            cases hr : s.ops.pool.release o.tag with
            | error e => rw [hr] at hs; cases hs
            | ok pool => rw [hr] at hs; cases hs; exact key _ _ rfl rfl rfl (by simp)
          · simp only [hend, Bool.false_eq_true, if_false] at hs
            cases hs
            exact key _ _ rfl rfl rfl (by simp)

theorem j_init (m : σ) : J ({ mem := m } : Conc σ) where
  all := fun i h => by cases h
  held := fun t h => by
    simp only [List.getD_eq_getElem?_getD, List.getElem?_replicate] at h
    split at h <;> cases h

theorem held_start {o o' : Ops} {req : Tlp} {ans : List Tlp} {n : Nat} (h : ∀ t, o.pool.active.getD t false = true → ∃ (i : Nat) (x : Op), o.ops[i]? = some x ∧ x.finished = false ∧ x.tag = t)
    (hs : o.step (.start req ans n) = .ok o') : ∀ t, o'.pool.active.getD t false = true → ∃ (i : Nat) (x : Op), o'.ops[i]? = some x ∧ x.finished = false ∧ x.tag = t := by
  simp only [Ops.step] at hs
  split at hs
  · rename_i tag pool ha
    cases hs
    intro t ht
    by_cases htt : t = tag
    · subst htt
      exact ⟨o.ops.length, _, List.getElem?_concat_length, rfl, rfl⟩
    · have : o.pool.active.getD t false = true := by
        simp only [Tags.alloc] at ha
        split at ha
        · cases ha
          simp only [List.getD_eq_getElem?_getD] at ht ⊢
          rwa [List.getElem?_set_ne (fun x => htt x.symm)] at ht
        · cases ha
      obtain ⟨i, x, h1, h2⟩ := h t this
      exact ⟨i, x, by rw [List.getElem?_append_left (List.getElem?_eq_some_iff.mp h1).1]; exact h1, h2⟩
  · cases hs; exact h

theorem held_recv {o o' : Ops} {i : Nat} (hlen : o.pool.active.length = 256) (hb : ∀ (i : Nat) (x : Op), o.ops[i]? = some x → x.tag < 256)
    (h : ∀ t, o.pool.active.getD t false = true → ∃ (i : Nat) (x : Op), o.ops[i]? = some x ∧ x.finished = false ∧ x.tag = t)
    (hs : o.step (.recv i) = .ok o') : ∀ t, o'.pool.active.getD t false = true → ∃ (i : Nat) (x : Op), o'.ops[i]? = some x ∧ x.finished = false ∧ x.tag = t := by
  simp only [Ops.step] at hs
  cases ho : o.ops[i]? with
  | none => rw [ho] at hs; cases hs; exact h
  | some x =>
    rw [ho] at hs
    simp only at hs
    split at hs
    · cases hs; exact h
    rename_i hf
    have hlt : i < o.ops.length := (List.getElem?_eq_some_iff.mp ho).1
    split at hs
    · cases hs; exact h
    · split at hs
      · split at hs
        · rename_i pool hr
          cases hs
          intro t ht
          simp only [Tags.release] at hr
          split at hr
          · cases hr
            by_cases htt : t = x.tag
            · subst htt
              simp only [List.getD_eq_getElem?_getD, List.getElem?_set, if_true] at ht
              rw [if_pos (by rw [hlen]; exact hb i x ho)] at ht
              cases ht
            · have ht' : o.pool.active.getD t false = true := by
                simp only [List.getD_eq_getElem?_getD] at ht ⊢
                rwa [List.getElem?_set_ne (fun x => htt x.symm)] at ht
              obtain ⟨j, y, h1, h2, h3⟩ := h t ht'
              refine ⟨j, y, ?_, h2, h3⟩
              show (o.ops.set i _)[j]? = _
              rw [List.getElem?_set_ne (fun hij => ?_)]
              · exact h1
              · subst hij; rw [ho] at h1; cases h1; exact htt h3.symm
          · cases hr
        · cases hs
      · cases hs
        intro t ht
        obtain ⟨j, y, h1, h2, h3⟩ := h t ht
        by_cases hij : i = j
        · subst hij
          rw [ho] at h1
          cases h1
          exact ⟨i, { x with got := x.got ++ [_] }, List.getElem?_set_self hlt, h2, h3⟩
        · exact ⟨j, y, by show (o.ops.set i _)[j]? = _; rw [List.getElem?_set_ne hij]; exact h1, h2, h3⟩

theorem j_step {C : Completer σ} {view : σ → Mem} {Good : σ → Prop} {rid : PcieId} {lo hi : Nat} {m0 : Mem} {s s' : Conc σ} (h : I view Good rid lo hi m0 s) (hj : J s)
    {e : ConcEv σ} (hs : s.step C e = some (.ok s')) : J s' := by
  cases e with
  | start t n =>
    simp only [step] at hs
    cases hr : s.ops.step (.start t [] n) with
    | error x => rw [hr] at hs; cases hs
    | ok o =>
      rw [hr] at hs
      cases hs
      refine ⟨?_, held_start hj.held hr⟩
      have hl : o.ops.length = s.ops.ops.length ∨ o.ops.length = s.ops.ops.length + 1 := by
        simp only [Ops.step] at hr
        split at hr <;> cases hr <;> simp
      intro i hi
      have hi' : i < o.ops.length := hi
      simp only [nums, List.mem_append]
      rcases hl with hl | hl
      · rw [if_neg (by omega)]
        have := hj.all i (by omega)
        simpa only [nums, List.mem_append] using this
      · rw [if_pos (by omega)]
        by_cases hn : i = s.ops.ops.length
        · simp [hn]
        · have := hj.all i (by omega)
          simp only [nums, List.mem_append] at this ⊢
          tauto
  | send i =>
    simp only [step] at hs
    cases ho : s.ops.ops[i]? with
    | none => rw [ho] at hs; cases hs
    | some o =>
      rw [ho] at hs
      simp only at hs
      split at hs <;> cases hs
      refine ⟨fun j hlt => ?_, hj.held⟩
      have := hj.all j hlt
      simp only [nums, List.mem_append, List.filterMap_append, List.filterMap_cons, List.filterMap_nil] at this ⊢
      by_cases hji : j = i
      · simp [hji]
      · rw [List.mem_erase_of_ne hji]; tauto
  | post t =>
    cases hs
    refine ⟨fun j hlt => ?_, hj.held⟩
    have := hj.all j hlt
    simpa [nums] using this
  | other m => cases hs; exact ⟨hj.all, hj.held⟩
  | handle =>
    simp only [step] at hs
    cases hl : s.link with
    | nil => rw [hl] at hs; cases hs
    | cons x rest =>
      obtain ⟨j, t⟩ := x
      rw [hl] at hs
      cases j with
      | none =>
        simp only at hs
        split at hs <;> cases hs
        refine ⟨fun j hlt => ?_, hj.held⟩
        have := hj.all j hlt
        simpa [nums, hl] using this
      | some i =>
        simp only at hs
        split at hs
        · cases hs
        rename_i ans _
        cases hs
        refine ⟨fun j hlt => ?_, fun t ht => ?_⟩
        · have := hj.all j (by simpa [answer] using hlt)
          simp only [nums, hl, List.filterMap_cons, List.mem_append, List.mem_cons, List.not_mem_nil, or_false] at this ⊢
          tauto
        · obtain ⟨j, y, h1, h2, h3⟩ := hj.held t ht
          by_cases hij : i = j
          · subst hij
            exact ⟨i, { y with answers := ans }, by simp only [answer, List.getElem?_modify, h1, if_true]; rfl, h2, h3⟩
          · exact ⟨j, y, by simp only [answer, List.getElem?_modify, if_neg hij, h1]; rfl, h2, h3⟩
  | arrive i =>
    simp only [step] at hs
    cases hr : s.ops.step (.arrive i) with
    | error x => rw [hr] at hs; cases hs
    | ok o =>
      rw [hr] at hs
      cases hs
      obtain ⟨k1, _⟩ := arrive_same hr
      have kp : o.pool = s.ops.pool := by
        simp only [Ops.step] at hr
        split at hr <;> cases hr <;> rfl
      exact ⟨fun j hlt => hj.all j (by rw [← k1]; exact hlt), by simp only [k1, kp]; exact hj.held⟩
  | recv i =>
    simp only [step] at hs
    cases hr : s.ops.step (.recv i) with
    | error x => rw [hr] at hs; cases hs
    | ok o =>
      rw [hr] at hs
      cases hs
      obtain ⟨k1, _⟩ := recv_same hr
      have hl : o.ops.length = s.ops.ops.length := by simpa using congrArg List.length k1
      refine ⟨fun j hlt => hj.all j (by rw [← hl]; exact hlt), held_recv (o := s.ops) h.ops.act (fun j x hx => ?_) hj.held hr⟩
      have := (h.ops.complete j (liftOp s.served j x) (by rw [lift_get, hx]; rfl)).2
      rwa [(liftOp_same _ _ _).2.1] at this

theorem j_run {C : Completer σ} {view : σ → Mem} {Good : σ → Prop} {rid : PcieId} {lo hi : Nat} (hC : ServesMem C view Good rid lo hi) {m0 : Mem} : ∀ (es : List (ConcEv σ)) {s s' : Conc σ},
    I view Good rid lo hi m0 s → J s → (∀ e ∈ es, TaskOk Good rid lo hi e) → s.run C es = some (.ok s') → I view Good rid lo hi m0 s' ∧ J s'
  | [], s, s', h, j, _, hr => by cases hr; exact ⟨h, j⟩
  | e :: es, s, s', h, j, he, hr => by
    unfold run at hr
    rcases step_i hC h (he e (List.mem_cons_self ..)) with h1 | ⟨s1, h1, h2⟩
    · rw [h1] at hr; cases hr
    · rw [h1] at hr
      exact j_run hC es h2 (j_step h j h1) (fun x hx => he x (List.mem_cons_of_mem _ hx)) hr

theorem works_ok {Good : σ → Prop} {rid : PcieId} {lo hi : Nat} {e : ConcEv σ} (h : Works e) : TaskOk Good rid lo hi e := by
  cases e <;> first | trivial | cases h

theorem goes_inv {C : Completer σ} {view : σ → Mem} {Good : σ → Prop} {rid : PcieId} {lo hi : Nat} (hC : ServesMem C view Good rid lo hi) {m0 : Mem} {s s' : Conc σ} {k : Nat} (hg : Goes C s k s') :
    I view Good rid lo hi m0 s → J s → I view Good rid lo hi m0 s' ∧ J s' ∧ k + s'.left ≤ s.left := by
  induction hg with
  | done s => intro h j; exact ⟨h, j, by omega⟩
  | more he _ ih =>
    intro h j
    have hl := happens_less hC h he
    rcases step_i hC h (works_ok (Good := Good) (lo := lo) (hi := hi) he.1) with h1 | ⟨s1, h1, h2⟩
    · rw [he.2.1] at h1; cases h1
    · rw [he.2.1] at h1
      cases h1
      obtain ⟨a, b, c⟩ := ih h2 (j_step h j he.2.1)
      exact ⟨a, b, by omega⟩

/-- When nothing happens any more, everything is done. -/
theorem quiet {C : Completer σ} {view : σ → Mem} {Good : σ → Prop} {rid : PcieId} {lo hi : Nat} (hC : ServesMem C view Good rid lo hi) {m0 : Mem} {s : Conc σ} (h : I view Good rid lo hi m0 s) (j : J s)
    (hq : ∀ e s', ¬ Happens C s e s') : s.unsent = [] ∧ s.link = [] ∧ ∀ o ∈ s.ops.ops, o.finished = true := by
  have go : ∀ e, Works e → s.step C e = none ∨ s.step C e = some (.ok s) := by
    intro e hw
    rcases step_i hC h (works_ok (Good := Good) (lo := lo) (hi := hi) hw) with h1 | ⟨s1, h1, _⟩
    · exact .inl h1
    · refine .inr ?_
      by_cases heq : s1 = s
      · rw [heq] at h1; exact h1
      · exact absurd ⟨hw, h1, heq⟩ (hq e s1)
  have hlink : s.link = [] := by
    cases hl : s.link with
    | nil => rfl
    | cons x rest =>
      exfalso
      obtain ⟨k, t⟩ := x
      rcases go .handle trivial with h1 | h1
      · simp only [step, hl] at h1
        cases k with
        | none => simp only at h1; split at h1 <;> cases h1
        | some i => simp only at h1; split at h1 <;> cases h1
      · simp only [step, hl] at h1
        have hx : ∀ s1 : Conc σ, s1.link = rest → s1 = s → False := fun s1 a b => by
          rw [b, hl] at a
          have := congrArg List.length a
          simp at this
        cases k with
        | none =>
          simp only at h1
          split at h1
          · cases h1
          · injection h1 with h1; injection h1 with h1; exact hx _ rfl h1
        | some i =>
          simp only at h1
          split at h1
          · cases h1
          · injection h1 with h1; injection h1 with h1; exact hx _ rfl h1
  have huns : s.unsent = [] := by
    cases hl : s.unsent with
    | nil => rfl
    | cons i rest =>
      exfalso
      have hi : i ∈ s.unsent := by rw [hl]; simp
      have hlt := h.bound i (by unfold nums; simp [hi])
      have ho := List.getElem?_eq_getElem hlt
      have h1 := go (.send i) trivial
      simp only [step, ho, if_pos hi] at h1
      rcases h1 with h1 | h1
      · cases h1
      · injection h1 with h1; injection h1 with h1
        have := congrArg Conc.link h1
        rw [hlink] at this
        simp at this
  refine ⟨huns, hlink, fun o ho => ?_⟩
  obtain ⟨i, hlt, hi⟩ := List.getElem_of_mem ho
  have ho' : s.ops.ops[i]? = some o := by rw [List.getElem?_eq_getElem hlt, hi]
  have hsv : i ∈ s.served := by
    have := j.all i hlt
    unfold nums at this
    rw [huns, hlink] at this
    simpa using this
  cases hf : o.finished with
  | true => rfl
  | false =>
    exfalso
    obtain ⟨⟨pre, last, a1, a2, a3⟩, hg, n, hn, hsp⟩ := served_live h ho' hf hsv
    have hqe : s.ops.queue o.tag = [] := by
      cases hq' : s.ops.queue o.tag with
      | nil => rfl
      | cons c rest =>
        exfalso
        have hx : ∀ (o' : Op) (s1 : Conc σ), s1.ops.ops = s.ops.ops.set i o' → o'.got.length = o.got.length + 1 → s1 = s → False := fun o' s1 a b c => by
          rw [c] at a
          have := congrArg (·[i]?) a
          simp only [ho', List.getElem?_set_self hlt, Option.some.injEq] at this
          rw [this] at b; omega
        have h1 := go (.recv i) trivial
        simp only [step, Ops.step, ho', hf, hq', Bool.false_eq_true, if_false] at h1
        split at h1
        · rcases h1 with h1 | h1
          · cases h1
          · cases h1
        · rename_i ops hops
          rcases h1 with h1 | h1
          · cases h1
          · injection h1 with h1; injection h1 with h1
            split at hops
            · split at hops
              · cases hops; exact hx _ _ rfl (by simp) h1
              · cases hops
            · cases hops; exact hx _ _ rfl (by simp) h1
    have hne : n = [] := by
      cases n with
      | nil => rfl
      | cons c rest =>
        exfalso
        have h1 := go (.arrive i) trivial
        simp only [step, Ops.step, ho', hn] at h1
        rcases h1 with h1 | h1
        · cases h1
        · injection h1 with h1; injection h1 with h1
          have := congrArg (fun s : Conc σ => s.ops.queue o.tag) h1
          simp only [hqe, if_true] at this
          simp at this
    rw [hqe, hne, a1] at hsp
    simp only [List.map_nil, List.append_nil] at hsp
    have hm : last ∈ o.got.map (·.2) := by rw [← hsp]; simp
    obtain ⟨c, c1, c2⟩ := List.mem_map.mp hm
    have := hg c c1
    rw [c2, a2] at this
    cases this

theorem left_le {view : σ → Mem} {Good : σ → Prop} {rid : PcieId} {lo hi : Nat} {m0 : Mem} {s : Conc σ} (h : I view Good rid lo hi m0 s) : s.left ≤ 2050 * s.ops.ops.length + s.link.length := by
  have h1 : s.posted ≤ s.link.length := List.countP_le_length
  have h2 : ∀ i, i < s.ops.ops.length → s.togo i ≤ 2050 := by
    intro i hlt
    unfold togo
    split
    · omega
    · split
      · rename_i hsv
        have ho := List.getElem?_eq_getElem hlt
        have hlen : s.ops.ops[i].answers.length ≤ 1024 := by
          obtain ⟨_, _, M, rcb, mps, first, n, _, hr, hl, _⟩ := h.done i _ ho hsv
          obtain ⟨⟨k, hk⟩, _⟩ := h.req i _ ho
          exact reads_count hk hr hl
        have hnet : ((s.ops.net[i]?).map List.length).getD 0 ≤ 1024 := by
          cases hf : s.ops.ops[i].finished with
          | false =>
            obtain ⟨_, _, n, hn, hsp⟩ := served_live h ho hf hsv
            rw [hn, Option.map_some, Option.getD_some]
            have := congrArg List.length hsp
            simp only [List.length_append] at this
            omega
          | true =>
            have hlo : (lift s.served s.ops).ops[i]? = some (liftOp s.served i s.ops.ops[i]) := by rw [lift_get, ho]; rfl
            have := (h.ops.ended i _ hlo (by rw [(liftOp_same _ _ _).2.2.1]; exact hf)).net
            rw [lift_net] at this
            cases hn : s.ops.net[i]? with
            | none => simp
            | some n =>
              rw [hn] at this
              simp only [Option.map_some, liftNet, if_pos hsv, Option.some.injEq] at this
              simp [this]
        rw [ho, Option.map_some, Option.getD_some]
        omega
      · omega
  have h3 : ((List.range s.ops.ops.length).map s.togo).sum ≤ ((List.range s.ops.ops.length).map fun _ => 2050).sum := sum_mono (fun i hi => h2 i (List.mem_range.mp hi))
  rw [List.map_const', List.sum_replicate_nat, List.length_range] at h3
  unfold left
  omega

theorem alloc_free {p : Tags} (h : ∀ t, p.active.getD t false = false) {n : Nat} (hn : 0 < n) : p.alloc n ≠ none := by
  obtain ⟨k, rfl⟩ : ∃ k, n = k + 1 := ⟨n - 1, by omega⟩
  unfold Tags.alloc Tags.scan
  simp only [h, Bool.false_eq_true, if_false]
  simp

end Conc
end Pcie
