/-
Routing decisions against their specification.
-/
import Verif.Spec.Route
namespace Pcie
open Spec

theorem assertCheck_ok {t : Tlp} (h : t.check = .ok true) : assertCheck t = .ok () := by
  unfold assertCheck; rw [h]

theorem createUr_isUr (t : Tlp) (id : PcieId) : IsUr (t.createUr id) t id :=
  ⟨show TlpType.ofPair 0 10 = _ by decide, rfl, rfl, rfl, rfl, rfl, rfl, rfl, rfl⟩

theorem createUr_check (t : Tlp) (id : PcieId) : (t.createUr id).check = .ok true := by
  have h : (t.createUr id).fmtType = some .CPL := by
    show TlpType.ofPair (t.createUr id).fmt (t.createUr id).type = _
    show TlpType.ofPair 0 10 = _
    decide
  unfold Tlp.check
  rw [h]
  simp only
  rw [show (t.createUr id).fmt = 0 from rfl, show (t.createUr id).length = 0 from rfl]
  rfl

theorem matchTlp_spec {pid : PcieId} {bars : List BarReg} {t : Tlp} {ty : TlpType} {tg : Target} (ht : t.fmtType = some ty)
    (htg : target t ty = some tg) (hb : GoodBars bars) :
    ∃ m, matchTlp pid bars t = .ok m ∧ (m = true ↔ ForFn pid bars tg) := by
  unfold matchTlp
  rw [ht]
  cases ty <;> simp only [target, Option.some.injEq, reduceCtorEq] at htg <;> subst htg <;>
    simp only [TlpType.isCfg0, TlpType.isCfg1, TlpType.isCpl, TlpType.isIo, TlpType.isMem, if_true, Bool.false_eq_true, if_false]
  case MEM_READ | MEM_READ_64 | MEM_WRITE | MEM_WRITE_64 =>
    obtain ⟨r, hr⟩ := hb t.address false
    rw [hr]
    refine ⟨_, rfl, ?_⟩
    show _ ↔ ∃ hit, matchBar bars t.address false = .ok (some hit)
    rw [hr]
    cases r <;> simp
  case IO_READ | IO_WRITE =>
    obtain ⟨r, hr⟩ := hb t.address true
    rw [hr]
    refine ⟨_, rfl, ?_⟩
    show _ ↔ ∃ hit, matchBar bars t.address true = .ok (some hit)
    rw [hr]
    cases r <;> simp
  all_goals
    refine ⟨_, rfl, ?_⟩
    unfold ForFn
    simp only [decide_eq_true_eq]
    first
      | exact ⟨fun h => ⟨h.1.symm, h.2.symm⟩, fun h => ⟨h.1.symm, h.2.symm⟩⟩
      | exact eq_comm
      | exact iff_of_false Bool.false_ne_true id

theorem BrFn.matchSecondary_spec {σ} {b : BrFn σ} {t : Tlp} {ty : TlpType} {tg : Target} (ht : t.fmtType = some ty)
    (htg : target t ty = some tg) : ∃ m, b.matchSecondary t = .ok m ∧ (m = true ↔ ForSecondary b tg) := by
  unfold BrFn.matchSecondary
  rw [ht]
  cases ty <;> simp only [target, Option.some.injEq, reduceCtorEq] at htg <;> subst htg <;>
    simp only [TlpType.isCfg0, TlpType.isCfg1, TlpType.isCpl, TlpType.isIo, TlpType.isMem, if_true, Bool.false_eq_true, if_false,
      reduceCtorEq, or_self] <;>
    refine ⟨_, rfl, ?_⟩ <;> unfold ForSecondary <;> simp [BrFn.busMatch, BusBehind]

theorem answerUr_spec {t : Tlp} {ty : TlpType} {tg : Target} (ht : t.fmtType = some ty)
    (htg : target t ty = some tg) : answerUr t = .ok (NonPosted ty) := by
  unfold answerUr
  rw [ht]
  cases ty <;> simp only [target, Option.some.injEq, reduceCtorEq] at htg <;> rfl

theorem isCpl_eq (ty : TlpType) : ty.isCpl = Completion ty := by cases ty <;> rfl

theorem handleTlp_spec {handlers : List TlpType} {t : Tlp} {ty : TlpType} (ht : t.fmtType = some ty)
    (hp : Prepared handlers ty t) : ∃ es, handleTlp handlers t = .ok es ∧ Taken ty t es := by
  unfold handleTlp
  rw [ht]
  simp only [isCpl_eq]
  unfold Prepared at hp
  unfold Taken
  by_cases h : Completion ty = true
  · rw [if_pos h] at hp
    simp only [h, if_true, hp]
    exact ⟨_, rfl, rfl⟩
  · rw [if_neg h] at hp
    simp only [h, hp, if_true]
    exact ⟨_, rfl, rfl⟩

theorem fmtType_value {t : Tlp} {ty : TlpType} (h : t.fmtType = some ty) : (t.fmt, t.type) = ty.value := by
  have := List.find?_some h
  simpa using (beq_iff_eq.1 this).symm

theorem TlpType.ofPair_mk (ty : TlpType) : TlpType.ofPair ty.value.1 ty.value.2 = some ty := by cases ty <;> decide

theorem BrFn.convert_relayed {σ} (b : BrFn σ) {t : Tlp} {ty : TlpType} (ht : t.fmtType = some ty) (hc : t.check = .ok true) :
    Relayed b.secBus ty t (b.convert t) ∧ (b.convert t).check = .ok true := by
  have hv := fmtType_value ht
  unfold Relayed BrFn.convert
  rw [ht]
  simp only [Option.some.injEq]
  by_cases h : (ty = .CFG_READ_1 ∨ ty = .CFG_WRITE_1) ∧ t.completer_id.bus = b.secBus
  · rw [if_pos h, if_pos h]
    rcases h.1 with e | e
    all_goals
      subst e
      simp only [TlpType.value, Prod.mk.injEq] at hv
      simp only [if_true, reduceCtorEq, if_false]
      refine ⟨⟨?_, ?_⟩, ?_⟩
      · exact TlpType.ofPair_mk _
      · cases t; simp only [Tlp.setFmtType] at *
      · unfold Tlp.check at hc ⊢
        rw [ht] at hc
        rw [show (t.setFmtType _).fmtType = some _ from TlpType.ofPair_mk _]
        simp only [Tlp.setFmtType, TlpType.value, hv.1] at hc ⊢
        exact hc
  · rw [if_neg h, if_neg h]
    exact ⟨rfl, hc⟩

theorem isCompletion_eq {t : Tlp} {ty : TlpType} (h : t.fmtType = some ty) : t.isCompletion = Completion ty := by
  unfold Tlp.isCompletion Tlp.fcType
  rw [h]
  cases ty <;> rfl

theorem BrFn.upstreamSend_ok {σ} (b : BrFn σ) {t : Tlp} (hc : t.check = .ok true) :
    b.upstreamSend t = .ok (if b.parityResp ∧ t.ep then { b with masterParity := true } else b, [.up t]) := by
  unfold BrFn.upstreamSend; rw [assertCheck_ok hc]

theorem BrFn.downstreamSend_ok {σ} (b : BrFn σ) {t : Tlp} (hc : t.check = .ok true) :
    b.downstreamSend t = .ok (if b.brParityResp ∧ t.ep then { b with secMasterParity := true } else b, [.down t]) := by
  unfold BrFn.downstreamSend; rw [assertCheck_ok hc]

/-- Two bridges that differ in status bits only. -/
structure BrFn.Same {σ} (a b : BrFn σ) : Prop where
  id : a.id = b.id
  bars : a.bars = b.bars
  handlers : a.handlers = b.handlers
  root : a.root = b.root
  sec : a.secBus = b.secBus
  sub : a.subBus = b.subBus
  ioBase : a.ioBase = b.ioBase
  ioLimit : a.ioLimit = b.ioLimit
  memBase : a.memBase = b.memBase
  memLimit : a.memLimit = b.memLimit
  prefBase : a.prefBase = b.prefBase
  prefLimit : a.prefLimit = b.prefLimit

theorem BrFn.Same.secondary {σ} {a b : BrFn σ} (h : a.Same b) (tg : Target) : ForSecondary a tg ↔ ForSecondary b tg := by
  cases tg <;> simp only [ForSecondary, BusBehind, h.sec, h.sub, h.ioBase, h.ioLimit, h.memBase, h.memLimit, h.prefBase, h.prefLimit]

theorem BrFn.Same.refl {σ} (b : BrFn σ) : b.Same b := ⟨rfl, rfl, rfl, rfl, rfl, rfl, rfl, rfl, rfl, rfl, rfl, rfl⟩

/-- bridge.py:325-378: the whole decision. -/
theorem BrFn.upstreamRecv_spec {σ} (b : BrFn σ) {t : Tlp} {ty : TlpType} {tg : Target} (ht : t.fmtType = some ty)
    (htg : target t ty = some tg) (hc : t.check = .ok true) (hb : GoodBars b.bars) :
    (ForFn b.id b.bars tg → Prepared b.handlers ty t → ∃ b' es, b.upstreamRecv t = .ok (b', es) ∧ Taken ty t es) ∧
    (¬ ForFn b.id b.bars tg → ForSecondary b tg → ∃ b' t', b.upstreamRecv t = .ok (b', [.down t']) ∧ Relayed b.secBus ty t t') ∧
    (¬ ForFn b.id b.bars tg → ¬ ForSecondary b tg → ∃ b' es, b.upstreamRecv t = .ok (b', es) ∧ Dropped .up ty t b.id es) := by
  unfold BrFn.upstreamRecv
  rw [assertCheck_ok hc]
  simp only
  obtain ⟨b1, h1, e1⟩ : ∃ b1 : BrFn σ, b1.Same b ∧ (if b.parityResp = true ∧ t.ep = true then { b with masterParity := true } else b) = b1 := by
    refine ⟨_, ?_, rfl⟩
    split
    · exact ⟨rfl, rfl, rfl, rfl, rfl, rfl, rfl, rfl, rfl, rfl, rfl, rfl⟩
    · exact .refl b
  rw [e1]
  obtain ⟨m, hm, hm'⟩ := matchTlp_spec (pid := b1.id) (bars := b1.bars) ht htg (by rw [h1.bars]; exact hb)
  obtain ⟨m2, hm2, hm2'⟩ := BrFn.matchSecondary_spec (b := b1) ht htg
  rw [h1.secondary] at hm2'
  rw [h1.id, h1.bars] at hm'
  rw [hm]
  refine ⟨fun hf hp => ?_, fun hf hs => ?_, fun hf hs => ?_⟩
  · rw [hm'.2 hf]
    simp only
    obtain ⟨es, he, hT⟩ := handleTlp_spec (handlers := b1.handlers) ht (by rw [h1.handlers]; exact hp)
    obtain ⟨b2, h2, e2⟩ : ∃ b2 : BrFn σ, b2.handlers = b1.handlers ∧ (if t.isCompletion = true ∧ t.status = CplStatus.CA then { b1 with rcvTargetAbort := true }
        else if t.isCompletion = true ∧ t.status = CplStatus.UR then { b1 with rcvMasterAbort := true } else b1) = b2 := by
      refine ⟨_, ?_, rfl⟩
      split
      · rfl
      · split <;> rfl
    rw [e2, h2, he]
    exact ⟨b2, es, rfl, hT⟩
  · rw [show m = false from by simpa using fun h => hf (hm'.1 h), hm2, hm2'.2 hs]
    simp only
    obtain ⟨hr, hk⟩ := b1.convert_relayed ht hc
    rw [b1.downstreamSend_ok hk]
    rw [h1.sec] at hr
    exact ⟨_, _, rfl, hr⟩
  · rw [show m = false from by simpa using fun h => hf (hm'.1 h), hm2, show m2 = false from by simpa using fun h => hs (hm2'.1 h)]
    simp only
    rw [answerUr_spec ht htg]
    unfold Dropped
    cases hn : NonPosted ty
    · exact ⟨_, _, rfl, by simp⟩
    · simp only
      rw [b1.upstreamSend_ok (createUr_check _ _)]
      refine ⟨_, _, rfl, ?_⟩
      simp only [if_true]
      exact ⟨t.createUr b1.id, by rw [h1.id]; exact createUr_isUr _ _, rfl⟩

/-- bridge.py:392-452: the whole decision. -/
theorem BrFn.downstreamRecv_spec {σ} (b : BrFn σ) {t : Tlp} {ty : TlpType} {tg : Target} (ht : t.fmtType = some ty)
    (htg : target t ty = some tg) (hc : t.check = .ok true) (hb : GoodBars b.bars) :
    (ty.isCfg = true → ∃ b' es, b.downstreamRecv t = .ok (b', es) ∧ Dropped .down ty t b.id es) ∧
    (ty.isCfg = false → b.root = false → ForFn b.id b.bars tg → Prepared b.handlers ty t →
      ∃ b' es, b.downstreamRecv t = .ok (b', es) ∧ Taken ty t es) ∧
    (ty.isCfg = false → (b.root = true ∨ ¬ ForFn b.id b.bars tg) → (b.root = true ∨ ¬ ForSecondary b tg) →
      ∃ b', b.downstreamRecv t = .ok (b', [.up t])) ∧
    (ty.isCfg = false → b.root = false → ¬ ForFn b.id b.bars tg → ForSecondary b tg →
      ∃ b' es, b.downstreamRecv t = .ok (b', es) ∧ Dropped .down ty t b.id es) := by
  unfold BrFn.downstreamRecv
  rw [assertCheck_ok hc]
  simp only
  obtain ⟨b1, h1, e1⟩ : ∃ b1 : BrFn σ, b1.Same b ∧ (if b.brParityResp = true ∧ t.ep = true then { b with secMasterParity := true } else b) = b1 := by
    refine ⟨_, ?_, rfl⟩
    split
    · exact ⟨rfl, rfl, rfl, rfl, rfl, rfl, rfl, rfl, rfl, rfl, rfl, rfl⟩
    · exact .refl b
  rw [e1]
  obtain ⟨m, hm, hm'⟩ := matchTlp_spec (pid := b1.id) (bars := b1.bars) ht htg (by rw [h1.bars]; exact hb)
  obtain ⟨m2, hm2, hm2'⟩ := BrFn.matchSecondary_spec (b := b1) ht htg
  rw [h1.secondary] at hm2'
  rw [h1.id, h1.bars] at hm'
  rw [hm, hm2, ht]
  have hroot := h1.root
  simp only [Option.any_some]
  have drop : ∃ b' es, (match answerUr t with
      | .error e => (.error e : Py (BrFn σ × List Eff))
      | .ok false => .ok (b1, [.release])
      | .ok true => match b1.downstreamSend (t.createUr b1.id) with
        | .error e => .error e
        | .ok (b, es) => .ok (b, .release :: es)) = .ok (b', es) ∧ Dropped .down ty t b.id es := by
    rw [answerUr_spec ht htg]
    unfold Dropped
    cases hn : NonPosted ty
    · exact ⟨_, _, rfl, by simp⟩
    · simp only
      rw [b1.downstreamSend_ok (createUr_check _ _)]
      refine ⟨_, _, rfl, ?_⟩
      simp only [if_true]
      exact ⟨t.createUr b1.id, by rw [h1.id]; exact createUr_isUr _ _, rfl⟩
  refine ⟨fun hcfg => ?_, fun hcfg hr hf hp => ?_, fun hcfg hf hs => ?_, fun hcfg hr hf hs => ?_⟩
  · simp only [hcfg, true_or, if_true, not_true_eq_false, false_and, if_false]
    exact drop
  · rw [if_neg (show ¬ (ty.isCfg = true ∨ b1.root = true) by rw [hcfg, hroot, hr]; simp), hm'.2 hf]
    simp only
    obtain ⟨es, he, hT⟩ := handleTlp_spec (handlers := b1.handlers) ht (by rw [h1.handlers]; exact hp)
    obtain ⟨b2, h2, e2⟩ : ∃ b2 : BrFn σ, b2.handlers = b1.handlers ∧ (if t.isCompletion = true ∧ t.status = CplStatus.CA then { b1 with secRcvTargetAbort := true }
        else if t.isCompletion = true ∧ t.status = CplStatus.UR then { b1 with secRcvMasterAbort := true } else b1) = b2 := by
      refine ⟨_, ?_, rfl⟩
      split
      · rfl
      · split <;> rfl
    rw [e2, h2, he]
    exact ⟨b2, es, rfl, hT⟩
  · have hsel : (if ty.isCfg = true ∨ b1.root = true then (.ok false : Py Bool) else .ok m) = .ok false := by
      rcases hf with hf | hf
      · rw [if_pos (.inr (hroot.trans hf))]
      · rw [show m = false from by simpa using fun h => hf (hm'.1 h)]; split <;> rfl
    rw [hsel]
    simp only [hcfg, Bool.false_eq_true, if_false, not_false_eq_true, true_and]
    rw [if_pos]
    · rw [b1.upstreamSend_ok hc]; exact ⟨_, rfl⟩
    · rcases hs with hs | hs
      · exact .inr (hroot.trans hs)
      · exact .inl fun h => hs (hm2'.1 h)
  · simp only [hcfg, hroot.trans hr, Bool.false_eq_true, or_self, if_false]
    rw [show m = false from by simpa using fun h => hf (hm'.1 h), hm2'.2 hs]
    simp only [Bool.false_eq_true, not_false_eq_true, not_true_eq_false, or_self, and_false, if_false]
    exact drop

/-! ### Devices -/

theorem Dev.findFn_spec {t : Tlp} {ty : TlpType} {tg : Target} (ht : t.fmtType = some ty) (htg : target t ty = some tg) :
    ∀ (fns : List RFn) (k : Nat), (∀ f ∈ fns, GoodBars f.bars) →
      ∃ r, Dev.findFn t k fns = .ok r ∧
        (match r with
          | none => ∀ f ∈ fns, ¬ ForFn f.id f.bars tg
          | some j => ∃ i f, j = k + i ∧ fns[i]? = some f ∧ ForFn f.id f.bars tg ∧ ∀ i' f', i' < i → fns[i']? = some f' → ¬ ForFn f'.id f'.bars tg)
  | [], _, _ => ⟨none, rfl, by simp⟩
  | f :: rest, k, hb => by
    obtain ⟨m, hm, hm'⟩ := matchTlp_spec (pid := f.id) (bars := f.bars) ht htg (hb f (by simp))
    unfold Dev.findFn
    rw [hm]
    cases m
    · obtain ⟨r, hr, hr'⟩ := Dev.findFn_spec ht htg rest (k + 1) (fun g hg => hb g (by simp [hg]))
      refine ⟨r, hr, ?_⟩
      have hnf : ¬ ForFn f.id f.bars tg := fun h => by simpa using hm'.2 h
      cases r with
      | none =>
        intro g hg
        rcases List.mem_cons.1 hg with e | e
        · rw [e]; exact hnf
        · exact hr' g e
      | some j =>
        obtain ⟨i, g, e1, e2, e3, e4⟩ := hr'
        refine ⟨i + 1, g, by omega, by simpa using e2, e3, ?_⟩
        intro i' f' hi' hf'
        cases i' with
        | zero => simp only [List.getElem?_cons_zero, Option.some.injEq] at hf'; rw [← hf']; exact hnf
        | succ i' => exact e4 i' f' (by omega) (by simpa using hf')
    · exact ⟨some k, rfl, 0, f, rfl, by simp, hm'.1 rfl, fun i' f' h => by omega⟩

/-! ### Switches -/

theorem Sw.claims_spec {σ} {p : SwPort σ} {t : Tlp} {ty : TlpType} {tg : Target} (ht : t.fmtType = some ty)
    (htg : target t ty = some tg) (hb : GoodBars p.bridge.bars) : ∃ m, Sw.claims p t = .ok m ∧ (m = true ↔ PortTakes p tg) := by
  obtain ⟨m, hm, hm'⟩ := matchTlp_spec (pid := p.bridge.id) (bars := p.bridge.bars) ht htg hb
  obtain ⟨m2, hm2, hm2'⟩ := BrFn.matchSecondary_spec (b := p.bridge) ht htg
  unfold Sw.claims PortTakes
  rw [hm, hm2]
  cases m
  · refine ⟨_, rfl, ?_⟩
    have : ¬ ForFn p.bridge.id p.bridge.bars tg := fun h => by simpa using hm'.2 h
    simp only [this, false_or]
    cases p.upstream
    · simpa using hm2'
    · simp only [if_true, ← hm2']; cases m2 <;> simp
  · exact ⟨_, rfl, by simp [hm'.1 rfl]⟩

theorem Sw.find_spec {σ} {t : Tlp} {ty : TlpType} {tg : Target} (ht : t.fmtType = some ty) (htg : target t ty = some tg) (i : Nat) :
    ∀ (ports : List (SwPort σ)) (k : Nat), (∀ p ∈ ports, GoodBars p.bridge.bars) →
      ∃ r, Sw.find i t k ports = .ok r ∧
        (match r with
          | none => ∀ j p, ports[j]? = some p → k + j ≠ i → ¬ PortTakes p tg
          | some n => n ≠ i ∧ ∃ j p, n = k + j ∧ ports[j]? = some p ∧ PortTakes p tg ∧
              ∀ j' p', j' < j → ports[j']? = some p' → k + j' ≠ i → ¬ PortTakes p' tg)
  | [], _, _ => ⟨none, rfl, by simp⟩
  | p :: rest, k, hb => by
    obtain ⟨m, hm, hm'⟩ := Sw.claims_spec (p := p) ht htg (hb p (by simp))
    have next : ∀ r : Option Nat, (match r with
          | none => ∀ j p, rest[j]? = some p → k + 1 + j ≠ i → ¬ PortTakes p tg
          | some n => n ≠ i ∧ ∃ j p, n = k + 1 + j ∧ rest[j]? = some p ∧ PortTakes p tg ∧
              ∀ j' p', j' < j → rest[j']? = some p' → k + 1 + j' ≠ i → ¬ PortTakes p' tg) →
        (k = i ∨ ¬ PortTakes p tg) → (match r with
          | none => ∀ j p', (p :: rest)[j]? = some p' → k + j ≠ i → ¬ PortTakes p' tg
          | some n => n ≠ i ∧ ∃ j p', n = k + j ∧ (p :: rest)[j]? = some p' ∧ PortTakes p' tg ∧
              ∀ j' p', j' < j → (p :: rest)[j']? = some p' → k + j' ≠ i → ¬ PortTakes p' tg) := by
      intro r hr' hor
      cases r with
      | none =>
        intro j g hg hne
        cases j with
        | zero =>
          simp only [List.getElem?_cons_zero, Option.some.injEq] at hg
          rw [← hg]; exact hor.resolve_left hne
        | succ j => exact hr' j g (by simpa using hg) (by omega)
      | some n =>
        obtain ⟨hn, j, g, e1, e2, e3, e4⟩ := hr'
        refine ⟨hn, j + 1, g, by omega, by simpa using e2, e3, ?_⟩
        intro j' f' hj' hf' hne
        cases j' with
        | zero => simp only [List.getElem?_cons_zero, Option.some.injEq] at hf'; rw [← hf']; exact hor.resolve_left hne
        | succ j' => exact e4 j' f' (by omega) (by simpa using hf') (by omega)
    obtain ⟨r, hr, hr'⟩ := Sw.find_spec ht htg i rest (k + 1) (fun g hg => hb g (by simp [hg]))
    unfold Sw.find
    by_cases hk : k = i
    · rw [if_pos hk]
      exact ⟨r, hr, next r hr' (.inl hk)⟩
    · rw [if_neg hk, hm]
      cases m
      · exact ⟨r, hr, next r hr' (.inr fun h => by simpa using hm'.2 h)⟩
      · exact ⟨some k, rfl, hk, 0, p, rfl, by simp, hm'.1 rfl, fun j' p' h => by omega⟩

end Pcie
