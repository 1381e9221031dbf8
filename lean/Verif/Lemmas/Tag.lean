/-
Helper lemmas: the tag pool.
-/
import Verif.Spec.Tag
import Mathlib.Data.List.Nodup
namespace Pcie
namespace Tags

theorem scan_some {active : List Bool} {n : Nat} (hn : 0 < n) : ∀ {k tag r}, scan active n k tag = some r →
    r < n ∧ active.getD r false = false
  | 0, _, _, h => by simp [scan] at h
  | k + 1, tag, r, h => by
    unfold scan at h
    simp only at h
    split at h
    · exact scan_some hn h
    · next h' =>
      injection h with h; subst h
      exact ⟨Nat.mod_lt _ hn, by simpa using h'⟩

theorem scan_none {active : List Bool} {n : Nat} : ∀ {k tag}, scan active n k tag = none →
    ∀ j, 1 ≤ j → j ≤ k → active.getD ((tag + j) % n) false = true
  | 0, _, _, j, h1, h2 => by omega
  | k + 1, tag, h, j, h1, h2 => by
    unfold scan at h
    simp only at h
    split at h
    · next h' =>
      by_cases hj : j = 1
      · subst hj; exact h'
      · have := scan_none h (j - 1) (by omega) (by omega)
        rw [Nat.mod_add_mod, show tag + 1 + (j - 1) = tag + j by omega] at this
        exact this
    · cases h

theorem alloc_some {p : Tags} {n tag : Nat} {p' : Tags} (h : p.alloc n = some (tag, p')) :
    tag < n ∧ p.active.getD tag false = false ∧ p'.active = p.active.set tag true := by
  unfold alloc at h
  split at h
  · next r hr =>
    simp only [Option.some.injEq, Prod.mk.injEq] at h
    obtain ⟨rfl, rfl⟩ := h
    have hn : 0 < n := by
      rcases Nat.eq_zero_or_pos n with h0 | h0
      · subst h0; simp [scan] at hr
      · exact h0
    obtain ⟨a, b⟩ := scan_some hn hr
    exact ⟨a, b, rfl⟩
  · cases h

theorem alloc_none {p : Tags} {n : Nat} (h : p.alloc n = none) (t : Nat) (ht : t < n) : p.active.getD t false = true := by
  unfold alloc at h
  split at h
  · cases h
  · next hr =>
    have := scan_none hr
    -- some j in 1..n has (current + j) % n = t
    have hc : p.current % n < n := Nat.mod_lt _ (by omega)
    by_cases hlt : p.current % n < t
    · have h2 := this (t - p.current % n) (by omega) (by omega)
      rw [← Nat.mod_add_mod, show p.current % n + (t - p.current % n) = t by omega, Nat.mod_eq_of_lt ht] at h2
      exact h2
    · have h2 := this (t + n - p.current % n) (by omega) (by omega)
      rw [← Nat.mod_add_mod, show p.current % n + (t + n - p.current % n) = t + n by omega, Nat.add_mod_right,
        Nat.mod_eq_of_lt ht] at h2
      exact h2

theorem getD_set (l : List Bool) (i j : Nat) (b : Bool) (hi : i < l.length) :
    (l.set i b).getD j false = if j = i then b else l.getD j false := by
  simp only [List.getD_eq_getElem?_getD, List.getElem?_set]
  by_cases h : i = j
  · subst h; simp [hi]
  · have : ¬ j = i := fun e => h e.symm
    simp [h, this]

end Tags

/-! ### Users of a pool -/

/-- The flags of the pool are exactly the tags held, and no tag is held twice. -/
structure TagUsers.Inv (s : TagUsers) : Prop where
  len : s.pool.active.length = 256
  nodup : s.held.Nodup
  lt : ∀ t ∈ s.held, t < 256
  act : ∀ t, s.pool.active.getD t false = true ↔ t ∈ s.held

theorem TagUsers.inv_init : TagUsers.Inv {} where
  len := List.length_replicate
  nodup := List.nodup_nil
  lt := by simp
  act := by
    intro t
    show (List.replicate 256 false).getD t false = true ↔ t ∈ ([] : List Nat)
    rw [List.getD_eq_getElem?_getD, List.getElem?_replicate]
    split <;> simp

theorem Tags.limit_le (ext : Bool) (n : Nat) : limit ext n ≤ 256 ∧ (ext = false → limit ext n ≤ 32) ∧ limit ext n ≤ n := by
  unfold limit; cases ext <;> simp <;> omega

theorem TagUsers.step_inv {s : TagUsers} (h : s.Inv) (op : TagOp) : ∃ s', s.step op = .ok s' ∧ s'.Inv := by
  cases op with
  | alloc ext n =>
    unfold step
    simp only
    split
    · next tag pool hal =>
      obtain ⟨a, b, c⟩ := Tags.alloc_some hal
      have hl := (Tags.limit_le ext n).1
      have hnot : tag ∉ s.held := fun hm => by rw [(h.act tag).2 hm] at b; cases b
      refine ⟨_, rfl, ?_, ?_, ?_, ?_⟩
      · simp only [c, List.length_set]; exact h.len
      · refine List.nodup_append.2 ⟨h.nodup, List.nodup_cons.2 ⟨by simp, List.nodup_nil⟩, ?_⟩
        intro x hx y hy
        simp only [List.mem_singleton] at hy
        subst hy
        exact fun e => hnot (e ▸ hx)
      · intro t ht
        rcases List.mem_append.1 ht with ht | ht
        · exact h.lt t ht
        · simp only [List.mem_singleton] at ht; omega
      · intro t
        simp only [c]
        rw [Tags.getD_set _ _ _ _ (by rw [h.len]; omega)]
        by_cases ht : t = tag
        · subst ht; simp
        · simp only [ht, if_false, h.act, List.mem_append, List.mem_singleton, or_false]
    · exact ⟨s, rfl, h⟩
  | release i =>
    unfold step
    simp only
    split
    · exact ⟨s, rfl, h⟩
    · next tag hi =>
      have hm : tag ∈ s.held := List.mem_of_getElem? hi
      have ha := (h.act tag).2 hm
      unfold Tags.release
      rw [if_pos ha]
      simp only
      obtain ⟨hil, hie⟩ := List.getElem?_eq_some_iff.1 hi
      refine ⟨_, rfl, ?_, ?_, ?_, ?_⟩
      · simp only [List.length_set]; exact h.len
      · exact h.nodup.eraseIdx i
      · intro t ht; exact h.lt t (List.mem_of_mem_eraseIdx ht)
      · intro t
        simp only
        rw [Tags.getD_set _ _ _ _ (by rw [h.len]; exact h.lt tag hm)]
        have he : s.held.eraseIdx i = s.held.erase tag := by
          rw [← hie]; exact (List.Nodup.erase_getElem h.nodup i hil).symm
        rw [he, h.nodup.mem_erase_iff]
        by_cases ht : t = tag
        · simp [ht]
        · simp only [ht, if_false, h.act, ne_eq, not_false_eq_true, true_and]

/-! ### Operations without timeouts -/

structure Op.Live (s : Ops) (i : Nat) (o : Op) : Prop where
  active : s.pool.active.getD o.tag false = true
  split : ∃ n, s.net[i]? = some n ∧ o.answers = o.got.map (·.2) ++ (s.queue o.tag).map (·.2) ++ n
  queue : ∀ c ∈ s.queue o.tag, c.1 = i
  got : ∀ c ∈ o.got, c.1 = i ∧ Op.ends o.req c.2 = false

structure Op.Ended (s : Ops) (i : Nat) (o : Op) : Prop where
  net : s.net[i]? = some []
  all : o.got.map (·.2) = o.answers
  got : ∀ c ∈ o.got, c.1 = i

structure Ops.Inv (s : Ops) : Prop where
  len : s.net.length = s.ops.length
  act : s.pool.active.length = 256
  complete : ∀ (i : Nat) (o : Op), s.ops[i]? = some o → Spec.CompleteAnswer o.req o.answers ∧ o.tag < 256
  live : ∀ (i : Nat) (o : Op), s.ops[i]? = some o → o.finished = false → Op.Live s i o
  ended : ∀ (i : Nat) (o : Op), s.ops[i]? = some o → o.finished = true → Op.Ended s i o
  uniq : ∀ (i j : Nat) (oi oj : Op), s.ops[i]? = some oi → s.ops[j]? = some oj → oi.finished = false → oj.finished = false →
    oi.tag = oj.tag → i = j
  free : ∀ t, s.pool.active.getD t false = false → s.queue t = []

theorem Ops.inv_init : Ops.Inv {} where
  len := rfl
  act := List.length_replicate
  complete := fun i o h => by cases h
  live := fun i o h => by cases h
  ended := fun i o h => by cases h
  uniq := fun i j a b h => by cases h
  free := fun _ _ => rfl

/-- If the completions received so far do not end the operation, and the next one does, it is the last of the answer. -/
theorem complete_split {req : Tlp} {ans pre : List Tlp} {c : Tlp} {rest : List Tlp} (h : Spec.CompleteAnswer req ans)
    (he : ans = pre ++ c :: rest) (hend : Op.ends req c = true) : rest = [] := by
  obtain ⟨q, last, e1, e2, e3⟩ := h
  rcases List.eq_nil_or_concat rest with h0 | ⟨r, x, h0⟩
  · exact h0
  · exfalso
    subst h0
    rw [e1] at he
    have : q ++ [last] = (pre ++ c :: r) ++ [x] := by rw [he]; simp
    have h2 := (List.append_inj' this rfl).1
    have := e3 c (by rw [h2]; simp)
    rw [hend] at this; cases this

theorem Ops.start_inv {s : Ops} (h : s.Inv) (req : Tlp) (answers : List Tlp) (n : Nat)
    (hc : Spec.CompleteAnswer req answers) (hn : n ≤ 256) : ∃ s', s.step (.start req answers n) = .ok s' ∧ s'.Inv := by
  unfold step
  simp only
  split
  · next tag pool hal =>
    obtain ⟨a, b, c⟩ := Tags.alloc_some hal
    have hget : ∀ t, pool.active.getD t false = if t = tag then true else s.pool.active.getD t false := by
      intro t; rw [c, Tags.getD_set _ _ _ _ (by rw [h.act]; omega)]
    refine ⟨_, rfl, ?_, ?_, ?_, ?_, ?_, ?_, ?_⟩
    · simp [h.len]
    · simp only [c, List.length_set]; exact h.act
    · intro i o hi
      simp only at hi
      rcases Nat.lt_or_ge i s.ops.length with hlt | hge
      · rw [List.getElem?_append_left hlt] at hi
        exact h.complete i o hi
      · rw [List.getElem?_append_right hge] at hi
        by_cases he : i - s.ops.length = 0
        · rw [he] at hi; simp at hi; subst hi; exact ⟨hc, by simp; omega⟩
        · rw [List.getElem?_eq_none (by simp; omega)] at hi; cases hi
    · intro i o hi hf
      simp only at hi
      rcases Nat.lt_or_ge i s.ops.length with hlt | hge
      · rw [List.getElem?_append_left hlt] at hi
        obtain ⟨l1, ⟨m, l2, l2'⟩, l3, l4⟩ := h.live i o hi hf
        refine ⟨?_, ⟨m, ?_, l2'⟩, l3, l4⟩
        · simp only [hget]; split <;> [rfl; exact l1]
        · simp only; rw [List.getElem?_append_left (by rw [h.len]; exact hlt)]; exact l2
      · rw [List.getElem?_append_right hge] at hi
        by_cases he : i - s.ops.length = 0
        · rw [he] at hi; simp at hi; subst hi
          have hq : s.queue tag = [] := h.free tag b
          refine ⟨?_, ⟨answers, ?_, ?_⟩, ?_, ?_⟩
          · simp only [hget, if_true]
          · simp only; rw [List.getElem?_append_right (by rw [h.len]; omega), h.len, he]; rfl
          · simp [hq]
          · simp [hq]
          · simp
        · rw [List.getElem?_eq_none (by simp; omega)] at hi; cases hi
    · intro i o hi hf
      simp only at hi
      rcases Nat.lt_or_ge i s.ops.length with hlt | hge
      · rw [List.getElem?_append_left hlt] at hi
        obtain ⟨l1, l2, l3⟩ := h.ended i o hi hf
        refine ⟨?_, l2, l3⟩
        simp only; rw [List.getElem?_append_left (by rw [h.len]; exact hlt)]; exact l1
      · rw [List.getElem?_append_right hge] at hi
        by_cases he : i - s.ops.length = 0
        · rw [he] at hi; simp at hi; subst hi; cases hf
        · rw [List.getElem?_eq_none (by simp; omega)] at hi; cases hi
    · intro i j oi oj hi hj fi fj ht
      simp only at hi hj
      have old : ∀ k o, (s.ops ++ [{ tag := tag, req := req, answers := answers }])[k]? = some o → o.finished = false →
          (s.ops[k]? = some o ∧ o.tag ≠ tag) ∨ (k = s.ops.length ∧ o.tag = tag) := by
        intro k o hk fk
        rcases Nat.lt_or_ge k s.ops.length with hlt | hge
        · rw [List.getElem?_append_left hlt] at hk
          refine .inl ⟨hk, fun e => ?_⟩
          have := (h.live k o hk fk).active
          rw [e, b] at this; cases this
        · rw [List.getElem?_append_right hge] at hk
          by_cases he : k - s.ops.length = 0
          · rw [he] at hk; simp at hk; subst hk; exact .inr ⟨by omega, rfl⟩
          · rw [List.getElem?_eq_none (by simp; omega)] at hk; cases hk
      rcases old i oi hi fi with ⟨a1, a2⟩ | ⟨a1, a2⟩ <;> rcases old j oj hj fj with ⟨b1, b2⟩ | ⟨b1, b2⟩
      · exact h.uniq i j oi oj a1 b1 fi fj ht
      · exact absurd (ht.trans b2) a2
      · exact absurd (ht.symm.trans a2) b2
      · omega
    · intro t ht
      simp only [hget] at ht ⊢
      split at ht
      · cases ht
      · exact h.free t ht
  · exact ⟨s, rfl, h⟩

theorem Ops.arrive_inv {s : Ops} (h : s.Inv) (i : Nat) : ∃ s', s.step (.arrive i) = .ok s' ∧ s'.Inv := by
  unfold step
  simp only
  split
  · next o c rest ho hnet =>
    -- only a live operation has completions under way
    have hf : o.finished = false := by
      cases hfin : o.finished
      · rfl
      · have := (h.ended i o ho hfin).net
        rw [this] at hnet; cases hnet
    have hlive := h.live i o ho hf
    have hil : i < s.net.length := (List.getElem?_eq_some_iff.1 hnet).1
    refine ⟨_, rfl, ?_, ?_, ?_, ?_, ?_, ?_, ?_⟩
    · simp [h.len]
    · exact h.act
    · exact h.complete
    · intro j oj hj fj
      simp only at hj
      by_cases hji : j = i
      · subst hji
        rw [ho] at hj; injection hj with hj; subst hj
        obtain ⟨l1, ⟨m, l2, l2'⟩, l3, l4⟩ := hlive
        rw [hnet] at l2; injection l2 with l2; subst l2
        refine ⟨l1, ⟨rest, ?_, ?_⟩, ?_, l4⟩
        · simp only; rw [List.getElem?_set_self hil]
        · simp only [if_true]; rw [l2']; simp
        · simp only [if_true]
          intro x hx
          rcases List.mem_append.1 hx with hx | hx
          · exact l3 x hx
          · simp only [List.mem_singleton] at hx; subst hx; rfl
      · have htag : oj.tag ≠ o.tag := fun e => hji (h.uniq j i oj o hj ho fj hf e)
        obtain ⟨l1, ⟨m, l2, l2'⟩, l3, l4⟩ := h.live j oj hj fj
        refine ⟨l1, ⟨m, ?_, ?_⟩, ?_, l4⟩
        · simp only; rw [List.getElem?_set_ne (fun e => hji e.symm)]; exact l2
        · simp only [htag, if_false]; exact l2'
        · simp only [htag, if_false]; exact l3
    · intro j oj hj fj
      simp only at hj
      have hji : ¬ j = i := fun e => by subst e; rw [ho] at hj; injection hj with hj; subst hj; rw [hf] at fj; cases fj
      obtain ⟨l1, l2, l3⟩ := h.ended j oj hj fj
      exact ⟨by simp only; rw [List.getElem?_set_ne (fun e => hji e.symm)]; exact l1, l2, l3⟩
    · exact h.uniq
    · intro t ht
      simp only at ht ⊢
      have htag : t ≠ o.tag := fun e => by rw [e, hlive.active] at ht; cases ht
      simp only [htag, if_false]
      exact h.free t ht
  · exact ⟨s, rfl, h⟩

theorem Ops.recv_inv {s : Ops} (h : s.Inv) (i : Nat) : ∃ s', s.step (.recv i) = .ok s' ∧ s'.Inv := by
  unfold step
  simp only
  split
  case h_2 => exact ⟨s, rfl, h⟩
  case h_1 o ho =>
    cases hf : o.finished
    case true => exact ⟨s, by simp, h⟩
    case false =>
      simp only [Bool.false_eq_true, if_false]
      have hlive := h.live i o ho hf
      have hil : i < s.ops.length := (List.getElem?_eq_some_iff.1 ho).1
      have htl := (h.complete i o ho).2
      cases hq : s.queue o.tag with
      | nil => exact ⟨s, rfl, h⟩
      | cons c rest =>
        simp only
        obtain ⟨l1, ⟨m, l2, l2'⟩, l3, l4⟩ := hlive
        rw [hq] at l2' l3
        have hc1 : c.1 = i := l3 c (by simp)
        have hset : ∀ (o' : Op) (j : Nat), (s.ops.set i o')[j]? = if j = i then some o' else s.ops[j]? := by
          intro o' j
          by_cases hji : j = i
          · subst hji; simp [hil]
          · rw [List.getElem?_set_ne (fun e => hji e.symm), if_neg hji]
        by_cases hend : Op.ends o.req c.2 = true
        · -- the last completion
          rw [if_pos hend]
          unfold Tags.release
          rw [if_pos l1]
          simp only
          have hnil : rest.map (·.2) ++ m = [] := complete_split (h.complete i o ho).1 (pre := o.got.map (·.2)) (c := c.2)
            (by rw [l2']; simp) hend
          have hrest : rest = [] := List.map_eq_nil_iff.1 (List.append_eq_nil_iff.1 hnil).1
          have hm : m = [] := (List.append_eq_nil_iff.1 hnil).2
          have hget : ∀ t, (s.pool.active.set o.tag false).getD t false = if t = o.tag then false else s.pool.active.getD t false :=
            fun t => Tags.getD_set _ _ _ _ (by rw [h.act]; exact htl)
          refine ⟨_, rfl, ?_, ?_, ?_, ?_, ?_, ?_, ?_⟩
          · simp [h.len]
          · simp [h.act]
          · intro j oj hj
            simp only [hset] at hj
            split at hj
            · injection hj with hj; subst hj; exact h.complete i o ho
            · exact h.complete j oj hj
          · intro j oj hj fj
            simp only [hset] at hj
            split at hj
            · injection hj with hj; subst hj; cases fj
            · next hji =>
              have htag : oj.tag ≠ o.tag := fun e => hji (h.uniq j i oj o hj ho fj hf e)
              obtain ⟨k1, ⟨m', k2, k2'⟩, k3, k4⟩ := h.live j oj hj fj
              refine ⟨?_, ⟨m', k2, ?_⟩, ?_, k4⟩
              · simp only [hget, htag, if_false]; exact k1
              · simp only [htag, if_false]; exact k2'
              · simp only [htag, if_false]; exact k3
          · intro j oj hj fj
            simp only [hset] at hj
            split at hj
            · next hji =>
              injection hj with hj; subst hj
              subst hji
              refine ⟨?_, ?_, ?_⟩
              · simp only; rw [l2, hm]
              · simp only; rw [l2', hrest, hm]; simp
              · intro x hx
                simp only at hx
                rcases List.mem_append.1 hx with hx | hx
                · exact (l4 x hx).1
                · simp only [List.mem_singleton] at hx; subst hx; exact hc1
            · obtain ⟨k1, k2, k3⟩ := h.ended j oj hj fj
              exact ⟨k1, k2, k3⟩
          · intro j k oj ok hj hk fj fk ht
            simp only [hset] at hj hk
            split at hj
            · injection hj with hj; subst hj; cases fj
            · split at hk
              · injection hk with hk; subst hk; cases fk
              · exact h.uniq j k oj ok hj hk fj fk ht
          · intro t ht
            simp only [hget] at ht
            simp only
            split
            · exact hrest
            · next htag => rw [if_neg htag] at ht; exact h.free t ht
        · rw [if_neg hend]
          have hend' : Op.ends o.req c.2 = false := by simpa using hend
          refine ⟨_, rfl, ?_, ?_, ?_, ?_, ?_, ?_, ?_⟩
          · simp [h.len]
          · exact h.act
          · intro j oj hj
            simp only [hset] at hj
            split at hj
            · injection hj with hj; subst hj; exact h.complete i o ho
            · exact h.complete j oj hj
          · intro j oj hj fj
            simp only [hset] at hj
            split at hj
            · next hji =>
              injection hj with hj; subst hj
              subst hji
              refine ⟨l1, ⟨m, l2, ?_⟩, ?_, ?_⟩
              · simp only [if_true]; rw [l2']; simp
              · simp only [if_true]; exact fun x hx => l3 x (List.mem_cons_of_mem _ hx)
              · intro x hx
                simp only at hx
                rcases List.mem_append.1 hx with hx | hx
                · exact l4 x hx
                · simp only [List.mem_singleton] at hx; subst hx; exact ⟨hc1, hend'⟩
            · next hji =>
              have htag : oj.tag ≠ o.tag := fun e => hji (h.uniq j i oj o hj ho fj hf e)
              obtain ⟨k1, ⟨m', k2, k2'⟩, k3, k4⟩ := h.live j oj hj fj
              refine ⟨k1, ⟨m', k2, ?_⟩, ?_, k4⟩
              · simp only [htag, if_false]; exact k2'
              · simp only [htag, if_false]; exact k3
          · intro j oj hj fj
            simp only [hset] at hj
            split at hj
            · injection hj with hj; subst hj; cases fj
            · obtain ⟨k1, k2, k3⟩ := h.ended j oj hj fj
              exact ⟨k1, k2, k3⟩
          · intro j k oj ok hj hk fj fk ht
            simp only [hset] at hj hk
            split at hj
            · next hji =>
              injection hj with hj; subst hj
              split at hk
              · omega
              · rw [hji]; exact h.uniq i k o ok ho hk hf fk ht
            · next hji =>
              split at hk
              · next hki => injection hk with hk; subst hk; rw [hki]; exact h.uniq j i oj o hj ho fj hf ht
              · exact h.uniq j k oj ok hj hk fj fk ht
          · intro t ht
            simp only at ht ⊢
            have htag : t ≠ o.tag := fun e => by rw [e, l1] at ht; cases ht
            simp only [htag, if_false]
            exact h.free t ht

theorem Ops.run_inv {s : Ops} (h : s.Inv) (acts : List OpAct) (ha : Spec.NoTimeout acts) :
    ∃ s', s.run acts = .ok s' ∧ s'.Inv := by
  induction acts generalizing s with
  | nil => exact ⟨s, rfl, h⟩
  | cons a as ih =>
    have h1 := ha a (by simp)
    have step : ∃ s', s.step a = .ok s' ∧ s'.Inv := by
      cases a with
      | start req answers n => exact start_inv h req answers n h1.1 h1.2
      | arrive i => exact arrive_inv h i
      | recv i => exact recv_inv h i
      | timeout i => exact absurd h1 id
    obtain ⟨s', e, hi⟩ := step
    unfold run
    rw [e]
    exact ih hi (fun a' ha' => ha a' (by simp [ha']))

end Pcie
