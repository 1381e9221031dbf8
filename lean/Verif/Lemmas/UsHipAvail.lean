import Verif.Lemmas.UsHip
namespace Pcie
open Spec
namespace Hip

/-! ### The number of available tags -/

theorem countP_pos {a : List (Option Tlp)} : 0 < a.countP Option.isNone ↔ ∃ k : Nat, a[k]? = some none := by
  rw [List.countP_pos_iff]
  constructor
  · rintro ⟨x, hx, hn⟩
    cases x with
    | some _ => cases hn
    | none => exact List.mem_iff_getElem?.mp hx
  · rintro ⟨k, hk⟩
    exact ⟨none, List.mem_of_getElem? hk, rfl⟩

theorem availCount_pos {a : List (Option Tlp)} (hl : a.length = 256) (ext : Bool) :
    0 < availCount ext a ↔ ∃ k : Nat, k < (if ext then 256 else 32) ∧ a[k]? = some none := by
  unfold availCount
  cases ext with
  | true =>
    simp only [if_true]
    rw [countP_pos]
    constructor
    · rintro ⟨k, hk⟩
      exact ⟨k, by rw [← hl]; exact (List.getElem?_eq_some_iff.mp hk).1, hk⟩
    · rintro ⟨k, _, hk⟩; exact ⟨k, hk⟩
  | false =>
    simp only [Bool.false_eq_true, if_false]
    rw [countP_pos]
    constructor
    · rintro ⟨k, hk⟩
      rw [List.getElem?_take] at hk
      split at hk
      · next h => exact ⟨k, h, hk⟩
      · cases hk
    · rintro ⟨k, h, hk⟩
      exact ⟨k, by rw [List.getElem?_take, if_pos h]; exact hk⟩

theorem scan_none {a : List (Option Tlp)} {n : Nat} : ∀ {k tag : Nat}, scan a n k tag = none → ∀ j : Nat, 1 ≤ j → j ≤ k → a[(tag + j) % n]? ≠ some none
  | 0, _, _, j, h1, h2 => by omega
  | k + 1, tag, h, j, h1, h2 => by
    unfold scan at h
    simp only at h
    split at h
    · cases h
    · next h' =>
      by_cases hj : j = 1
      · subst hj; exact h'
      · have := scan_none h (j - 1) (by omega) (by omega)
        rw [Nat.mod_add_mod, show tag + 1 + (j - 1) = tag + j by omega] at this
        exact this

theorem freeTag_isSome {p : HipParams} {s : Hip} {t : Nat} (h : t < tagLimit p s.ext) (ht : s.active[t]? = some none) : ∃ tag, freeTag p s = some tag := by
  rcases hf : freeTag p s with _ | tag
  · exfalso
    have := scan_none hf
    generalize tagLimit p s.ext = n at h this
    have hc : s.current % n < n := Nat.mod_lt _ (by omega)
    by_cases hlt : s.current % n < t
    · have h2 := this (t - s.current % n) (by omega) (by omega)
      rw [← Nat.mod_add_mod, show s.current % n + (t - s.current % n) = t by omega, Nat.mod_eq_of_lt h] at h2
      exact h2 ht
    · have h2 := this (n - s.current % n + t) (by omega) (by omega)
      rw [← Nat.mod_add_mod, show s.current % n + (n - s.current % n + t) = n + t by omega, Nat.add_mod_left, Nat.mod_eq_of_lt h] at h2
      exact h2 ht
  · exact ⟨tag, rfl⟩

/-! ### What a step changes -/

/-- The configuration stays, and either nothing happened to the tags or the number of available tags is up to date. -/
structure Quiet (s s' : Hip) : Prop where
  ext : s'.ext = s.ext
  funcs : s'.funcs = s.funcs
  tags : (s'.active = s.active ∧ s'.avail = s.avail) ∨ s'.avail = availCount s'.ext s'.active

theorem issue_quiet {p : HipParams} {s s' : Hip} {t : Tlp} (h : issue p s t = .ok s') : Quiet s s' ∧ acceptedOf s'.hist = acceptedOf s.hist := by
  unfold issue at h
  split at h
  · cases h
  · split at h
    · cases h
    · cases h
    · cases h
      exact ⟨⟨rfl, rfl, .inr rfl⟩, by simp [acceptedOf]⟩

theorem npTry_quiet {p : HipParams} {s s' : Hip} {t : Tlp} (h : npTry p s t = .ok s') : Quiet s s' ∧ acceptedOf s'.hist = acceptedOf s.hist := by
  unfold npTry at h
  split at h
  · cases h; exact ⟨⟨rfl, rfl, .inl ⟨rfl, rfl⟩⟩, rfl⟩
  · split at h
    · cases h; exact ⟨⟨rfl, rfl, .inl ⟨rfl, rfl⟩⟩, rfl⟩
    · simp only at h
      split at h
      · cases h
      · cases h; exact ⟨⟨rfl, rfl, .inl ⟨rfl, rfl⟩⟩, by simp [acceptedOf]⟩
      · obtain ⟨h1, h2⟩ := issue_quiet h
        exact ⟨⟨h1.ext, h1.funcs, h1.tags⟩, h2⟩

theorem enqueue_quiet (p : HipParams) (s : Hip) (t : Tlp) : Quiet s (enqueue p s t) ∧ (enqueue p s t).hist = s.hist := by
  unfold enqueue
  split <;> exact ⟨⟨rfl, rfl, .inl ⟨rfl, rfl⟩⟩, rfl⟩

theorem rqRecv_quiet {p : HipParams} {s s' : Hip} {u : UsTlp} (h : rqRecv p s u = .ok s') :
    Quiet s s' ∧ acceptedOf s'.hist = acceptedOf s.hist ++ (if u.discontinue then [] else [s.requester u]) := by
  unfold rqRecv at h
  split at h
  · next hd => cases h; rw [if_pos hd]; exact ⟨⟨rfl, rfl, .inl ⟨rfl, rfl⟩⟩, by simp⟩
  · next hd =>
    rw [if_neg hd]
    simp only at h
    generalize s.requester u = t at h
    split at h
    · cases h
    · unfold rqNonposted at h
      simp only at h
      split at h
      · split at h
        · cases h
        · cases h; exact ⟨⟨rfl, rfl, .inl ⟨rfl, rfl⟩⟩, by simp [acceptedOf]⟩
        · by_cases hb : t.tag < (if s.ext then p.tagMax else 32)
          · rw [if_pos hb] at h
            obtain ⟨h1, h2⟩ := issue_quiet h
            exact ⟨⟨h1.ext, h1.funcs, h1.tags⟩, by rw [h2]; simp [acceptedOf]⟩
          · rw [if_neg hb] at h; cases h
      · cases h
        obtain ⟨h1, h2⟩ := enqueue_quiet p { s with hist := s.hist ++ [.accepted t] } t
        exact ⟨⟨h1.ext, h1.funcs, h1.tags⟩, by rw [h2]; simp [acceptedOf]⟩
    · unfold rqPosted at h
      split at h
      · cases h
      · cases h; exact ⟨⟨rfl, rfl, .inl ⟨rfl, rfl⟩⟩, by simp [acceptedOf]⟩
      · cases h; exact ⟨⟨rfl, rfl, .inl ⟨rfl, rfl⟩⟩, by simp [acceptedOf]⟩

theorem cplRecv_quiet {p : HipParams} {s s' : Hip} {c : Tlp} (h : cplRecv p s c = .ok s') : Quiet s s' ∧ acceptedOf s'.hist = acceptedOf s.hist := by
  unfold cplRecv at h
  split at h
  · split at h
    · cases h
    · simp only at h
      generalize judge _ _ = j at h
      cases h
      unfold account buffer
      simp only
      split
      · exact ⟨⟨rfl, rfl, .inr rfl⟩, by simp [acceptedOf]⟩
      · exact ⟨⟨rfl, rfl, .inr rfl⟩, by simp [acceptedOf]⟩
  · cases h; exact ⟨⟨rfl, rfl, .inl ⟨rfl, rfl⟩⟩, rfl⟩

/-- The requests that a step accepts. -/
def takes (s : Hip) : HipEv → List Tlp
  | .rq u => if u.discontinue then [] else [s.requester u]
  | _ => []

theorem step_quiet {p : HipParams} {s s' : Hip} {e : HipEv} (h : step p s e = some (.ok s')) :
    (match e with
      | .cfg x b f => s' = { s with ext := x, busNum := b, funcs := f }
      | _ => Quiet s s') ∧ acceptedOf s'.hist = acceptedOf s.hist ++ takes s e := by
  cases e with
  | rq u =>
    simp only [step] at h
    split at h
    · exact rqRecv_quiet (Option.some.inj h)
    · cases h
  | rqWake =>
    simp only [step] at h
    split at h
    · have h := Option.some.inj h
      cases h
      obtain ⟨h1, h2⟩ := enqueue_quiet p s ‹_›
      exact ⟨h1, by rw [h2]; simp [takes]⟩
    · cases h
  | npGet =>
    simp only [step] at h
    split at h
    · obtain ⟨h1, h2⟩ := npTry_quiet (Option.some.inj h)
      exact ⟨⟨h1.ext, h1.funcs, h1.tags⟩, by rw [h2]; simp [takes]⟩
    · cases h
  | npWake =>
    simp only [step] at h
    split at h
    · obtain ⟨h1, h2⟩ := npTry_quiet (Option.some.inj h)
      exact ⟨h1, by rw [h2]; simp [takes]⟩
    · cases h
  | cpl c =>
    simp only [step] at h
    split at h
    · obtain ⟨h1, h2⟩ := cplRecv_quiet (Option.some.inj h)
      exact ⟨h1, by rw [h2]; simp [takes]⟩
    · cases h
  | rcGet =>
    simp only [step] at h
    split at h
    · have h := Option.some.inj h
      cases h
      exact ⟨⟨rfl, rfl, .inl ⟨rfl, rfl⟩⟩, by simp [takes]⟩
    · cases h
  | rcDone =>
    simp only [step] at h
    split at h
    · have h := Option.some.inj h
      cases h
      exact ⟨⟨rfl, rfl, .inl ⟨rfl, rfl⟩⟩, by simp [takes, acceptedOf]⟩
    · cases h
  | cfg x b f =>
    have h := Option.some.inj h
    cases h
    exact ⟨rfl, by simp [takes]⟩

/-! ### No exceptions -/

/-- The state in which nothing fails. -/
structure Safe (n : Nat) (p : HipParams) (s : Hip) : Prop where
  inv : Inv p s
  avail : 0 < s.avail → ∃ k : Nat, k < (if s.ext then 256 else 32) ∧ s.active[k]? = some none
  funcs : n ≤ s.funcs.length
  acc : ∀ t ∈ acceptedOf s.hist, t.requester_id.function < n

theorem Safe.wait {n : Nat} {p : HipParams} {s : Hip} (h : Safe n p s) (t : Tlp) (ht : t ∈ waiting s) : t.requester_id.function < n := by
  have : untagged t ∈ (acceptedOf s.hist).map untagged := h.inv.core.perm.symm.subset (List.mem_map_of_mem (List.mem_append_right _ ht))
  obtain ⟨x, hx, he⟩ := List.mem_map.mp this
  have := h.acc x hx
  rw [show t.requester_id = x.requester_id from (congrArg Tlp.requester_id he).symm]
  exact this

theorem issue_ok {p : HipParams} {s : Hip} (t : Tlp) (hc : p.client = false) (hp : (if s.ext then 256 else 32) ≤ p.tagCount)
    (ha : ∃ k : Nat, k < (if s.ext then 256 else 32) ∧ s.active[k]? = some none) :
    ∃ tag s', issue p s t = .ok s' ∧ s'.hist = s.hist ++ [.sent ({ t with tag := tag } : Tlp).copy] := by
  obtain ⟨k, hk, h0⟩ := ha
  have hlim : tagLimit p s.ext = if s.ext then 256 else 32 := Nat.min_eq_left hp
  obtain ⟨tag, hf⟩ := freeTag_isSome (p := p) (s := s) (by rw [hlim]; exact hk) h0
  unfold issue
  rw [hc]
  simp only [Bool.false_eq_true, if_false]
  rw [hf]
  simp only
  rw [(freeTag_some hf).1]
  exact ⟨tag, _, rfl, rfl⟩

theorem master_some {s : Hip} {t : Tlp} {n : Nat} (h : t.requester_id.function < n) (hf : n ≤ s.funcs.length) : ∃ b, s.master t = some b := by
  unfold master
  rw [List.getElem?_eq_getElem (by omega)]
  exact ⟨_, rfl⟩

theorem npTry_ok {n : Nat} {p : HipParams} {s : Hip} (t : Tlp) (hc : p.client = false) (hp : (if s.ext then 256 else 32) ≤ p.tagCount)
    (ha : 0 < s.avail → ∃ k : Nat, k < (if s.ext then 256 else 32) ∧ s.active[k]? = some none) (hf : n ≤ s.funcs.length) (ht : t.requester_id.function < n) :
    ∃ s', npTry p s t = .ok s' := by
  unfold npTry
  split
  · exact ⟨_, rfl⟩
  · split
    · exact ⟨_, rfl⟩
    · next h1 h2 =>
      simp only
      obtain ⟨b, hb⟩ := master_some (s := { s with np := .idle }) ht hf
      rw [hb]
      cases b with
      | false => exact ⟨_, rfl⟩
      | true =>
        obtain ⟨tag, s', h3, _⟩ := issue_ok (s := { s with np := .idle }) t hc hp (ha (by simp only [hc, true_and] at h2; omega))
        exact ⟨s', h3⟩

theorem step_noerror {n : Nat} {p : HipParams} {s : Hip} {e : HipEv} (h : Safe n p s) (hc : p.client = false) (hp : (if s.ext then 256 else 32) ≤ p.tagCount)
    (ht : 32 ≤ p.tagMax) (he : Orderly n e) (x : String) : step p s e ≠ some (.error x) := by
  cases e with
  | rq u =>
    obtain ⟨e1, e2, e3⟩ := he
    simp only [step]
    split
    · suffices hh : ∃ s', rqRecv p s u = .ok s' by
        obtain ⟨s', hh⟩ := hh
        rw [hh]; simp
      unfold rqRecv
      split
      · exact ⟨_, rfl⟩
      · simp only
        have r1 : (s.requester u).fcType = u.tlp.fcType := by unfold requester; split <;> rfl
        have r2 : (s.requester u).requester_id.function = u.tlp.requester_id.function := by unfold requester; split <;> rfl
        have r3 : (s.requester u).tag = u.tlp.tag := by unfold requester; split <;> rfl
        generalize s.requester u = t at r1 r2 r3
        obtain ⟨b, hb⟩ := master_some (s := { s with hist := s.hist ++ [.accepted t] }) (t := t) (by rw [r2]; exact e2) h.funcs
        split
        · next hf => rw [r1] at hf; exact absurd hf e1
        · unfold rqNonposted
          split
          · next hcond =>
            rw [hb]
            cases b with
            | false => exact ⟨_, rfl⟩
            | true =>
              simp only
              rw [if_pos (by rw [r3]; split <;> omega)]
              obtain ⟨tag, s', h3, _⟩ := issue_ok (s := { s with hist := s.hist ++ [.accepted t] }) t hc hp (h.avail (by simpa [hc] using hcond.2.2))
              exact ⟨s', h3⟩
          · exact ⟨_, rfl⟩
        · unfold rqPosted
          rw [hb]
          cases b <;> exact ⟨_, rfl⟩
    · simp
  | rqWake => simp only [step]; split <;> simp
  | npGet =>
    simp only [step]
    split
    · next t rest hn hq =>
      obtain ⟨s', hh⟩ := npTry_ok (s := { s with npq := rest, rq := unblock s.rq }) t hc hp h.avail h.funcs
        (h.wait t (by rw [waiting_eq, hn, hq]; simp))
      rw [hh]; simp
    · simp
  | npWake =>
    simp only [step]
    split
    · next t hn =>
      obtain ⟨s', hh⟩ := npTry_ok t hc hp h.avail h.funcs (h.wait t (by rw [waiting_eq, hn]; simp))
      rw [hh]; simp
    · simp
  | cpl c =>
    simp only [step]
    split
    · unfold cplRecv
      split
      · rw [List.getElem?_eq_getElem (by rw [h.inv.core.len]; exact he)]
        simp
      · simp
    · simp
  | rcGet => simp only [step]; split <;> simp
  | rcDone => simp only [step]; split <;> simp
  | cfg a b f => simp [step]

theorem step_safe {n : Nat} {p : HipParams} {s s' : Hip} {e : HipEv} (h : Safe n p s) (hs : step p s e = some (.ok s')) (he : Orderly n e)
    (hx : ∀ x b f, e = .cfg x b f → s.ext = true → x = true) : Safe n p s' := by
  have hi := step_inv h.inv hs
  obtain ⟨h1, h2⟩ := step_quiet hs
  have hacc : ∀ t ∈ acceptedOf s'.hist, t.requester_id.function < n := by
    rw [h2]
    intro t ht
    rcases List.mem_append.mp ht with ht | ht
    · exact h.acc t ht
    · cases e with
      | rq u =>
        simp only [takes] at ht
        split at ht
        · cases ht
        · rw [List.mem_singleton.mp ht]
          have r2 : (s.requester u).requester_id.function = u.tlp.requester_id.function := by unfold requester; split <;> rfl
          rw [r2]; exact he.2.1
      | _ => cases ht
  have quiet : Quiet s s' → Safe n p s' := by
    intro hq
    refine ⟨hi, ?_, by rw [hq.funcs]; exact h.funcs, hacc⟩
    rcases hq.tags with ⟨a, b⟩ | a
    · rw [a, b, hq.ext]; exact h.avail
    · rw [a]; exact (availCount_pos hi.core.len _).mp
  cases e with
  | cfg x b f =>
    simp only at h1
    refine ⟨hi, ?_, by rw [h1]; exact he, hacc⟩
    rw [h1]
    intro hav
    obtain ⟨k, hk, h0⟩ := h.avail hav
    refine ⟨k, ?_, h0⟩
    have := hx x b f rfl
    cases hse : s.ext with
    | true => rw [hse] at hk; rw [this hse]; exact hk
    | false =>
      rw [hse] at hk
      simp only [Bool.false_eq_true, if_false] at hk
      cases x
      · exact hk
      · simp only [if_true]; omega
  | _ => exact quiet h1

theorem run_noerror {n : Nat} {p : HipParams} (hc : p.client = false) (hp : 32 ≤ p.tagCount) (ht : 32 ≤ p.tagMax) :
    ∀ (es : List HipEv) (s : Hip), Safe n p s → (s.ext = true → 256 ≤ p.tagCount) → (∀ e ∈ es, Orderly n e) → ExtKept s.ext es →
      (∀ b f, HipEv.cfg true b f ∈ es → 256 ≤ p.tagCount) → ∀ x, run p s es ≠ some (.error x) := by
  intro es
  induction es with
  | nil => intro s _ _ _ _ _ x; simp [run]
  | cons e es ih =>
    intro s h hse ho hk hcf x
    have hp' : (if s.ext then 256 else 32) ≤ p.tagCount := by
      cases hh : s.ext
      · exact hp
      · exact hse hh
    have hne := step_noerror h hc hp' ht (ho e List.mem_cons_self)
    unfold run
    split
    · simp
    · next y hy => exact absurd hy (hne y)
    · next s1 hs1 =>
      have hx : ∀ x b f, e = .cfg x b f → s.ext = true → x = true := by
        intro x b f he
        subst he
        exact hk.1
      have hs := step_safe h hs1 (ho e List.mem_cons_self) hx
      have hrest : ExtKept s1.ext es ∧ (s1.ext = true → 256 ≤ p.tagCount) := by
        have h1 := (step_quiet hs1).1
        cases e with
        | cfg x b f =>
          simp only at h1
          rw [h1]
          exact ⟨hk.2, fun h => hcf b f (by rw [show x = true from h]; exact List.mem_cons_self)⟩
        | _ => rw [h1.ext]; exact ⟨hk, hse⟩
      exact ih s1 hs hrest.2 (fun e he => ho e (List.mem_cons_of_mem _ he)) hrest.1 (fun b f hm => hcf b f (List.mem_cons_of_mem _ hm)) x

/-! ### With a fixed setting the number of available tags is exact -/

/-- Whether there are free tags is known. -/
structure Exact (e : Bool) (p : HipParams) (s : Hip) : Prop where
  inv : Inv p s
  ext : s.ext = e
  avail : 0 < s.avail ↔ ∃ k : Nat, k < (if e then 256 else 32) ∧ s.active[k]? = some none

theorem step_exact {e : Bool} {p : HipParams} {s s' : Hip} {ev : HipEv} (h : Exact e p s) (hs : step p s ev = some (.ok s')) (hx : ∀ x b f, ev = .cfg x b f → x = e) :
    Exact e p s' := by
  have hi := step_inv h.inv hs
  obtain ⟨h1, -⟩ := step_quiet hs
  have quiet : Quiet s s' → Exact e p s' := by
    intro hq
    refine ⟨hi, by rw [hq.ext]; exact h.ext, ?_⟩
    rcases hq.tags with ⟨a, b⟩ | a
    · rw [a, b]; exact h.avail
    · rw [a, hq.ext, h.ext]; exact availCount_pos hi.core.len _
  cases ev with
  | cfg x b f =>
    simp only at h1
    refine ⟨hi, by rw [h1]; exact hx x b f rfl, ?_⟩
    rw [h1]; exact h.avail
  | _ => exact quiet h1

theorem run_exact {e : Bool} {p : HipParams} : ∀ (es : List HipEv) (s s' : Hip), Exact e p s → ExtFixed e es → run p s es = some (.ok s') → Exact e p s' := by
  intro es
  induction es with
  | nil => intro s s' h _ hr; cases hr; exact h
  | cons ev es ih =>
    intro s s' h hf hr
    unfold run at hr
    split at hr
    · cases hr
    · cases hr
    · next s1 hs1 =>
      refine ih s1 s' (step_exact h hs1 ?_) (fun x b f hm => hf x b f (List.mem_cons_of_mem _ hm)) hr
      intro x b f he
      exact hf x b f (by rw [he]; exact List.mem_cons_self)

theorem exact_init (e : Bool) (p : HipParams) (b : Nat) (f : List (PcieId × Bool)) : Exact e p { ext := e, busNum := b, funcs := f } := by
  refine ⟨inv_init p _ rfl, rfl, ⟨fun _ => ⟨0, by split <;> omega, ?_⟩, fun _ => by show 0 < 32; omega⟩⟩
  rw [List.getElem?_replicate]; rfl

theorem safe_init {n : Nat} (e : Bool) (p : HipParams) (b : Nat) (f : List (PcieId × Bool)) (h : n ≤ f.length) : Safe n p { ext := e, busNum := b, funcs := f } :=
  ⟨inv_init p _ rfl, (exact_init e p b f).avail.mp, h, by simp [acceptedOf]⟩

end Hip
end Pcie
