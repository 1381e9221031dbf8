/-
Views of a port (what it does as sender and what it does as receiver) and how the port functions change them.
-/
import Verif.Spec.Port
import Mathlib.Algebra.BigOperators.Group.List.Basic
namespace Pcie
open Spec

/-! ### Chains of values in flight -/

/-- The values `vs` represent an ascending sequence between `lo` and `hi`; if `ex`, the last one represents `hi`. -/
def Chain (f : Nat → Nat) (ex : Prop) (lo : Nat) : List Nat → Nat → Prop
  | [], hi => lo ≤ hi ∧ (ex → lo = hi)
  | v :: vs, hi => ∃ V, v = f V ∧ lo ≤ V ∧ Chain f ex V vs hi

theorem Chain.le {f : Nat → Nat} {ex : Prop} {lo hi : Nat} {vs : List Nat} (h : Chain f ex lo vs hi) : lo ≤ hi := by
  induction vs generalizing lo with
  | nil => exact h.1
  | cons v vs ih => obtain ⟨V, -, h1, h2⟩ := h; exact Nat.le_trans h1 (ih h2)

theorem Chain.mono {f : Nat → Nat} {ex ex' : Prop} {lo hi hi' : Nat} {vs : List Nat} (h : Chain f ex lo vs hi)
    (hh : hi ≤ hi') (he : ex' → ex ∧ hi = hi') : Chain f ex' lo vs hi' := by
  induction vs generalizing lo with
  | nil => exact ⟨Nat.le_trans h.1 hh, fun x => (h.2 (he x).1).trans (he x).2⟩
  | cons v vs ih => obtain ⟨V, h0, h1, h2⟩ := h; exact ⟨V, h0, h1, ih h2⟩

theorem Chain.push {f : Nat → Nat} {ex ex' : Prop} {lo hi : Nat} {vs : List Nat} (h : Chain f ex lo vs hi) :
    Chain f ex' lo (vs ++ [f hi]) hi := by
  induction vs generalizing lo with
  | nil => exact ⟨hi, rfl, h.1, Nat.le_refl _, fun _ => rfl⟩
  | cons v vs ih => obtain ⟨V, h0, h1, h2⟩ := h; exact ⟨V, h0, h1, ih h2⟩

theorem Chain.lower {f : Nat → Nat} {ex ex' : Prop} {lo lo' hi : Nat} {vs : List Nat} (h : Chain f ex lo vs hi)
    (hl : lo' ≤ lo) (he : ex' → ex ∧ lo' = lo) : Chain f ex' lo' vs hi := by
  induction vs generalizing lo lo' with
  | nil => exact ⟨Nat.le_trans hl h.1, fun x => by rw [(he x).2]; exact h.2 (he x).1⟩
  | cons v vs ih =>
    obtain ⟨V, h0, h1, h2⟩ := h
    exact ⟨V, h0, Nat.le_trans hl h1, h2.mono (Nat.le_refl _) fun x => ⟨(he x).1, rfl⟩⟩

/-! ### Views -/

@[ext] structure TxF where
  bits : Nat
  init : Nat
  consumed : Nat
  limit : Nat
@[ext] structure RxF where
  bits : Nat
  init : Nat
  alloc : Nat
  recv : Nat

def FcState.tx (s : FcState) : TxF := ⟨s.bits, s.txInit, s.txConsumed, s.txLimit⟩
def FcState.rx (s : FcState) : RxF := ⟨s.bits, s.rxInit, s.rxAlloc, s.rxRecv⟩

/-- The credits of a type have been taken from an InitFC DLLP. -/
def FcCh.cap (c : FcCh) : FcType → Bool
  | .P => c.fi1p
  | .NP => c.fi1np
  | .CPL => c.fi1cpl

/-- The sender's part of a flow-control channel. -/
@[ext] structure TxC where
  tx : Credit → TxF
  cap : FcType → Bool
  fi1 : Bool
  fi2 : Bool
/-- The receiver's part. -/
@[ext] structure RxC where
  rx : Credit → RxF
  dict : List (Nat × FcType × Nat)
  nextToken : Nat
  next : FcType → Nat

def FcCh.txv (c : FcCh) : TxC := ⟨fun w => (counters c w).tx, c.cap, c.fi1, c.fi2⟩
def FcCh.rxv (c : FcCh) : RxC := ⟨fun w => (counters c w).rx, c.dict, c.nextToken, nextUpdate c⟩

@[ext] structure TxView where
  nextTx : Nat
  ackd : Nat
  retry : List Tlp
  txq : List Tlp
  accepted : List Tlp
  fc : TxC
@[ext] structure RxView where
  nextRx : Nat
  nak : Bool
  sendAck : Bool
  ackTimer : Bool
  delivered : List Tlp
  fc : RxC

def Port.txv (p : Port) : TxView := ⟨p.nextTx, p.ackd, p.retry, p.txq, p.accepted, p.fc.txv⟩
def Port.rxv (p : Port) : RxView := ⟨p.nextRx, p.nak, p.sendAck, p.ackTimer, p.delivered, p.fc.rxv⟩

/-! ### Channel functions -/

theorem FcState.txConsume_tx (s : FcState) (n : Nat) :
    (s.txConsume n).tx = { s.tx with consumed := if s.txInit = 0 then s.txConsumed else (s.txConsumed + n) % 2 ^ s.bits } := by
  unfold FcState.txConsume FcState.txInfinite FcState.tx
  by_cases h : s.txInit = 0 <;> simp [h]
theorem FcState.txConsume_rx (s : FcState) (n : Nat) : (s.txConsume n).rx = s.rx := by
  unfold FcState.txConsume FcState.rx; split <;> rfl
theorem FcState.rxConsume_tx (s : FcState) (n : Nat) : (s.rxConsume n).tx = s.tx := by
  unfold FcState.rxConsume FcState.tx; split <;> rfl
theorem FcState.rxRelease_tx (s : FcState) (n : Nat) : (s.rxRelease n).tx = s.tx := by
  unfold FcState.rxRelease FcState.tx; split <;> rfl
theorem FcState.rxConsume_rx (s : FcState) (n : Nat) :
    (s.rxConsume n).rx = { s.rx with recv := if s.rxInit = 0 then s.rxRecv else (s.rxRecv + n) % 2 ^ s.bits } := by
  unfold FcState.rxConsume FcState.rxInfinite FcState.rx
  by_cases h : s.rxInit = 0 <;> simp [h]
theorem FcState.rxRelease_rx (s : FcState) (n : Nat) :
    (s.rxRelease n).rx = { s.rx with alloc := if s.rxInit = 0 then s.rxAlloc else (s.rxAlloc + n) % 2 ^ s.bits } := by
  unfold FcState.rxRelease FcState.rxInfinite FcState.rx
  by_cases h : s.rxInit = 0 <;> simp [h]

/-- The amount that credit `w` changes by. -/
theorem FcCh.counters_txConsume (c : FcCh) (ty : FcType) (dc : Nat) (w : Credit) :
    counters (c.txConsume ty dc) w = if ty = w.1 then (counters c w).txConsume (if w.2 then dc else 1) else counters c w := by
  obtain ⟨wt, wd⟩ := w
  cases ty <;> cases wt <;> cases wd <;> rfl
theorem FcCh.counters_rxConsume (c : FcCh) (ty : FcType) (dc : Nat) (w : Credit) :
    counters (c.rxConsume ty dc) w = if ty = w.1 then (counters c w).rxConsume (if w.2 then dc else 1) else counters c w := by
  obtain ⟨wt, wd⟩ := w
  cases ty <;> cases wt <;> cases wd <;> rfl
theorem FcCh.counters_rxRelease (c : FcCh) (ty : FcType) (dc : Nat) (w : Credit) :
    counters (c.rxRelease ty dc) w = if ty = w.1 then (counters c w).rxRelease (if w.2 then dc else 1) else counters c w := by
  obtain ⟨wt, wd⟩ := w
  cases ty <;> cases wt <;> cases wd <;> rfl

theorem FcCh.txConsume_rxv (c : FcCh) (ty : FcType) (dc : Nat) : (c.txConsume ty dc).rxv = c.rxv := by
  ext1
  · funext w
    show (counters _ w).rx = _
    rw [FcCh.counters_txConsume]; split
    · exact FcState.txConsume_rx _ _
    · rfl
  all_goals (cases ty <;> rfl)

theorem FcCh.rxConsume_txv (c : FcCh) (ty : FcType) (dc : Nat) : (c.rxConsume ty dc).txv = c.txv := by
  ext1
  · funext w
    show (counters _ w).tx = _
    rw [FcCh.counters_rxConsume]; split
    · exact FcState.rxConsume_tx _ _
    · rfl
  all_goals (cases ty <;> rfl)

theorem FcCh.rxRelease_txv (c : FcCh) (ty : FcType) (dc : Nat) : (c.rxRelease ty dc).txv = c.txv := by
  ext1
  · funext w
    show (counters _ w).tx = _
    rw [FcCh.counters_rxRelease]; split
    · exact FcState.rxRelease_tx _ _
    · rfl
  all_goals (cases ty <;> rfl)

theorem FcCh.txConsume_flags (c : FcCh) (ty : FcType) (dc : Nat) :
    (c.txConsume ty dc).cap = c.cap ∧ (c.txConsume ty dc).fi1 = c.fi1 ∧ (c.txConsume ty dc).fi2 = c.fi2 := by
  cases ty <;> exact ⟨rfl, rfl, rfl⟩

theorem FcCh.rxRelease_dict (c : FcCh) (ty : FcType) (dc : Nat) :
    (c.rxRelease ty dc).dict = c.dict ∧ (c.rxRelease ty dc).nextToken = c.nextToken ∧
    nextUpdate (c.rxRelease ty dc) = (fun x => if ty = x then 0 else nextUpdate c x) := by
  refine ⟨by cases ty <;> rfl, by cases ty <;> rfl, ?_⟩
  funext x; cases ty <;> cases x <;> rfl

theorem FcCh.rxConsume_dict (c : FcCh) (ty : FcType) (dc : Nat) :
    (c.rxConsume ty dc).dict = c.dict ∧ (c.rxConsume ty dc).nextToken = c.nextToken ∧
    nextUpdate (c.rxConsume ty dc) = nextUpdate c := by
  refine ⟨by cases ty <;> rfl, by cases ty <;> rfl, ?_⟩
  funext x; cases ty <;> cases x <;> rfl

/-- The field of an FC DLLP that belongs to credit `w`. -/
def fld (w : Credit) (d : Dllp) : Nat := if w.2 then d.data_fc else d.hdr_fc

theorem FcCh.update_some {c c' : FcCh} {now steps : Nat} {d : Dllp} (h : c.update now steps = some (c', d)) :
    ∃ ty, nextUpdate c ty ≤ now ∧ d.type = updType ty ∧ (∀ b, fld (ty, b) d = (counters c (ty, b)).rxAlloc) ∧ c'.txv = c.txv ∧
      (∀ w, (counters c' w) = counters c w) ∧ c'.dict = c.dict ∧ c'.nextToken = c.nextToken ∧
      (∀ x, nextUpdate c' x = if x = ty then now + steps else nextUpdate c x) := by
  unfold FcCh.update at h
  split at h
  · rename_i hle
    injection h with h; injection h with h1 h2; subst h1 h2
    exact ⟨.P, hle, rfl, fun b => by cases b <;> rfl, rfl, fun ⟨a, b⟩ => by cases a <;> cases b <;> rfl, rfl, rfl,
      fun x => by cases x <;> rfl⟩
  · split at h
    · rename_i hle
      injection h with h; injection h with h1 h2; subst h1 h2
      exact ⟨.NP, hle, rfl, fun b => by cases b <;> rfl, rfl, fun ⟨a, b⟩ => by cases a <;> cases b <;> rfl, rfl, rfl,
        fun x => by cases x <;> rfl⟩
    · split at h
      · rename_i hle
        injection h with h; injection h with h1 h2; subst h1 h2
        exact ⟨.CPL, hle, rfl, fun b => by cases b <;> rfl, rfl, fun ⟨a, b⟩ => by cases a <;> cases b <;> rfl, rfl, rfl,
          fun x => by cases x <;> rfl⟩
      · cases h

theorem FcCh.initDllp_type (c : FcCh) (ty : FcType) :
    (c.initDllp ty).type = (if c.fi1 then init2Type ty else init1Type ty) ∧
    ∀ b, fld (ty, b) (c.initDllp ty) = (counters c (ty, b)).rxAlloc := by
  refine ⟨?_, fun b => ?_⟩
  · cases ty <;> rfl
  · cases ty <;> cases b <;> rfl

/-- The channel after taking the credits of type `ty`. -/
def FcCh.captured (c : FcCh) (d : Dllp) : FcType → FcCh
  | .P => { c with ph := c.ph.capture d.hdr_fc, pd := c.pd.capture d.data_fc, fi1p := true,
                   fi1 := true && c.fi1np && c.fi1cpl }
  | .NP => { c with nph := c.nph.capture d.hdr_fc, npd := c.npd.capture d.data_fc, fi1np := true,
                    fi1 := c.fi1p && true && c.fi1cpl }
  | .CPL => { c with cplh := c.cplh.capture d.hdr_fc, cpld := c.cpld.capture d.data_fc, fi1cpl := true,
                     fi1 := c.fi1p && c.fi1np && true }

/-- FC_INIT1: an InitFC of type `ty`. -/
theorem FcCh.init1_init (c : FcCh) (d : Dllp) (ty : FcType) (h : d.type = init1Type ty ∨ d.type = init2Type ty) :
    (∀ w, counters (c.init1 d) w = if w.1 = ty then (counters c w).capture (fld w d) else counters c w) ∧
    (∀ x, (c.init1 d).cap x = (decide (x = ty) || c.cap x)) ∧
    ((c.init1 d).fi1 = ((c.init1 d).cap .P && (c.init1 d).cap .NP && (c.init1 d).cap .CPL)) ∧
    (c.init1 d).fi2 = c.fi2 ∧ (c.init1 d).dict = c.dict ∧ (c.init1 d).nextToken = c.nextToken ∧
    nextUpdate (c.init1 d) = nextUpdate c := by
  have key : c.init1 d = c.captured d ty := by
    unfold FcCh.init1
    cases ty <;> rcases h with h | h <;> rw [h] <;> rfl
  rw [key]
  unfold FcCh.captured
  cases ty
  all_goals
    refine ⟨fun ⟨a, b⟩ => by cases a <;> cases b <;> rfl, fun x => by cases x <;> rfl, rfl, rfl, rfl, rfl, ?_⟩
    funext x; cases x <;> rfl

theorem FcCh.init1_update (c : FcCh) (d : Dllp) (ty : FcType) (h : d.type = updType ty) : c.init1 d = c := by
  unfold FcCh.init1; cases ty <;> rw [h] <;> rfl

/-- After FC_INIT2: an UpdateFC of type `ty`. -/
theorem FcCh.handleFc_update (c : FcCh) (d : Dllp) (ty : FcType) (h : d.type = updType ty) (h1 : c.fi1 = true)
    (h2 : c.fi2 = true) (ha : ∀ b, (counters c (ty, b)).txInit = 0 → fld (ty, b) d = 0) :
    ∃ c', c.handleFc d = .ok c' ∧
    (∀ w, counters c' w = if w.1 = ty then { counters c w with txLimit := fld w d } else counters c w) ∧
    c'.cap = c.cap ∧ c'.fi1 = true ∧ c'.fi2 = true ∧ c'.dict = c.dict ∧ c'.nextToken = c.nextToken ∧
    nextUpdate c' = nextUpdate c := by
  have ha1 := ha false
  have ha2 := ha true
  unfold FcCh.handleFc
  rw [if_neg (by simp [h1]), if_neg (by simp [h2])]
  cases ty
  · simp only [updType] at h
    have hu : FcCh.updateAssert c.ph c.pd d = true :=
      decide_eq_true ⟨fun hh => ha1 (of_decide_eq_true hh), fun hh => ha2 (of_decide_eq_true hh)⟩
    rw [if_pos h, if_pos hu]
    refine ⟨_, rfl, fun ⟨a, b⟩ => by cases a <;> cases b <;> rfl, ?_, h1, h2, rfl, rfl, ?_⟩
    · funext x; cases x <;> rfl
    · funext x; cases x <;> rfl
  · simp only [updType] at h
    have hu : FcCh.updateAssert c.nph c.npd d = true :=
      decide_eq_true ⟨fun hh => ha1 (of_decide_eq_true hh), fun hh => ha2 (of_decide_eq_true hh)⟩
    rw [if_neg (by rw [h]; decide), if_pos h, if_pos hu]
    refine ⟨_, rfl, fun ⟨a, b⟩ => by cases a <;> cases b <;> rfl, ?_, h1, h2, rfl, rfl, ?_⟩
    · funext x; cases x <;> rfl
    · funext x; cases x <;> rfl
  · simp only [updType] at h
    have hu : FcCh.updateAssert c.cplh c.cpld d = true :=
      decide_eq_true ⟨fun hh => ha1 (of_decide_eq_true hh), fun hh => ha2 (of_decide_eq_true hh)⟩
    rw [if_neg (by rw [h]; decide), if_neg (by rw [h]; decide), if_pos h, if_pos hu]
    refine ⟨_, rfl, fun ⟨a, b⟩ => by cases a <;> cases b <;> rfl, ?_, h1, h2, rfl, rfl, ?_⟩
    · funext x; cases x <;> rfl
    · funext x; cases x <;> rfl

theorem FcCh.handleFc_init (c : FcCh) (d : Dllp) (ty : FcType) (h : d.type = init1Type ty ∨ d.type = init2Type ty)
    (h1 : c.fi1 = true) (h2 : c.fi2 = true) : c.handleFc d = .ok c := by
  unfold FcCh.handleFc
  rw [if_neg (by simp [h1]), if_neg (by simp [h2])]
  cases ty <;> rcases h with h | h <;> rw [h] <;> rfl

theorem FcCh.handleFc_fi2 (c : FcCh) (d : Dllp) (h1 : c.fi1 = true) (h2 : c.fi2 = false) (ty : FcType) :
    (d.type = init1Type ty → c.handleFc d = .ok c) ∧
    (d.type = init2Type ty ∨ d.type = updType ty → c.handleFc d = .ok { c with fi2 := true }) := by
  unfold FcCh.handleFc
  rw [if_neg (by simp [h1]), if_pos (by simp [h2])]
  constructor
  · intro h; cases ty <;> rw [h] <;> rfl
  · intro h; cases ty <;> rcases h with h | h <;> rw [h] <;> rfl

theorem FcCh.handleFc_fi1 (c : FcCh) (d : Dllp) (h1 : c.fi1 = false) : c.handleFc d = .ok (c.init1 d) := by
  unfold FcCh.handleFc
  rw [if_pos (by simp [h1])]

/-- Receiving FC DLLPs does not concern the receiver's counters. -/
theorem FcCh.handleFc_rxv {c c' : FcCh} {d : Dllp} (h : c.handleFc d = .ok c') : c'.rxv = c.rxv := by
  unfold FcCh.handleFc at h
  split at h
  · injection h with h; subst h
    unfold FcCh.init1
    split
    · ext1
      · funext ⟨a, b⟩
        cases a <;> cases b <;> simp only [FcCh.rxv, counters] <;> split_ifs <;> rfl
      · simp only [FcCh.rxv]; split_ifs <;> rfl
      · simp only [FcCh.rxv]; split_ifs <;> rfl
      · funext x; cases x <;> simp only [FcCh.rxv, nextUpdate] <;> split_ifs <;> rfl
    · rfl
  · split at h
    · split at h <;> injection h with h <;> subst h <;> (ext1 <;> first | rfl | (funext x; cases x <;> rfl))
    · split at h
      · split at h
        · injection h with h; subst h
          ext1 <;> first | rfl | (funext ⟨a, b⟩; cases a <;> cases b <;> rfl) | (funext x; cases x <;> rfl)
        · cases h
      · split at h
        · split at h
          · injection h with h; subst h
            ext1 <;> first | rfl | (funext ⟨a, b⟩; cases a <;> cases b <;> rfl) | (funext x; cases x <;> rfl)
          · cases h
        · split at h
          · split at h
            · injection h with h; subst h
              ext1 <;> first | rfl | (funext ⟨a, b⟩; cases a <;> cases b <;> rfl) | (funext x; cases x <;> rfl)
            · cases h
          · injection h with h; subst h; rfl

end Pcie
