/-
The invariant of a link in one direction, and its preservation by every event.
-/
import Verif.Lemmas.PortBase
import Mathlib.Tactic.Ring
namespace Pcie
open Spec

def acks (dl : List Dllp) : List Nat := (dl.filter (·.type = Dllp.ACK)).map (·.seq)
def upds (w : Credit) (dl : List Dllp) : List Nat := (dl.filter (·.type = updType w.1)).map (fld w)
def bitsOf (w : Credit) : Nat := if w.2 then 16 else 12

/-- Flow control for credit `w`. -/
structure FcInv (t : TxC) (acc : List Tlp) (r : RxC) (del : List Tlp) (dl : List Dllp) (w : Credit) : Prop where
  tb : (t.tx w).bits = bitsOf w
  rb : (r.rx w).bits = bitsOf w
  ri : (r.rx w).init < 2 ^ (bitsOf w - 1)
  hd : held w r.dict ≤ units w del
  al : (r.rx w).alloc = if (r.rx w).init = 0 then 0 else ((r.rx w).init + (units w del - held w r.dict)) % 2 ^ bitsOf w
  rc : (r.rx w).recv = if (r.rx w).init = 0 then 0 else units w del % 2 ^ bitsOf w
  co : (t.tx w).consumed = if (r.rx w).init = 0 then 0 else units w acc % 2 ^ bitsOf w
  cp : t.cap w.1 = true → (t.tx w).init = (r.rx w).init
  ch : (r.rx w).init ≠ 0 → ∃ L, (t.cap w.1 = true → (t.tx w).limit = L % 2 ^ bitsOf w) ∧ units w acc ≤ L ∧
    (r.rx w).init ≤ L ∧
    Chain (· % 2 ^ bitsOf w) (r.next w.1 ≠ 0) L (upds w dl) ((r.rx w).init + (units w del - held w r.dict))
  inf : (r.rx w).init = 0 → ∀ v ∈ upds w dl, v = 0
  ini : t.fi2 = false → ∀ d ∈ dl, d.type = init1Type w.1 ∨ d.type = init2Type w.1 → fld w d = (r.rx w).init

/-- Sequence numbers: `S` are the TLPs transmitted, `i` the number received, `k` the number purged. -/
structure SeqInv (bnd : Prop) (t : TxView) (r : RxView) (tl : List Tlp) (dl : List Dllp) (S : List Tlp) (i k : Nat) : Prop where
  acc : t.accepted = S ++ t.txq
  ntx : t.nextTx = S.length % 4096
  il : i ≤ S.length
  fl : tl = (numbered S).drop i
  de : r.delivered = ((numbered S).take i).map Tlp.copy
  nrx : r.nextRx = i % 4096
  nak : r.nak = false
  rt : t.retry = (numbered S).drop k
  ack : t.ackd = (k + 4095) % 4096
  ch : Chain (fun V => (V + 4095) % 4096) (bnd ∧ r.sendAck = false ∧ r.ackTimer = false) k (acks dl) i

structure Dir (bnd : Prop) (t : TxView) (r : RxView) (tl : List Tlp) (dl : List Dllp) : Prop where
  seq : ∃ S i k, SeqInv bnd t r tl dl S i k
  fc : ∀ w, FcInv t.fc t.accepted r.fc r.delivered dl w
  types : ∀ d ∈ dl, d.type = Dllp.ACK ∨ ∃ ty, d.type = init1Type ty ∨ d.type = init2Type ty ∨ d.type = updType ty
  fi21 : t.fc.fi2 = true → t.fc.fi1 = true
  fi1c : t.fc.fi1 = true → ∀ ty, t.fc.cap ty = true
  acc0 : t.fc.fi2 = false → t.accepted = []
  fct : ∀ x ∈ t.accepted, x.fcType ≠ none
  tokn : (r.fc.dict.map (·.1)).Nodup
  tokl : ∀ e ∈ r.fc.dict, e.1 < r.fc.nextToken

/-! ### Accounting -/

theorem units_append (w : Credit) (a b : List Tlp) : units w (a ++ b) = units w a + units w b := by
  simp [units]
theorem held_append (w : Credit) (a b : List (Nat × FcType × Nat)) : held w (a ++ b) = held w a + held w b := by
  simp [held]
@[simp] theorem units_nil (w : Credit) : units w [] = 0 := rfl
theorem units_single (w : Credit) (t : Tlp) : units w [t] = cost w t := by simp [units]
theorem held_erase (w : Credit) (l : List (Nat × FcType × Nat)) (e : Nat × FcType × Nat) (h : e ∈ l) :
    held w l = costOf w e.2.1 e.2.2 + held w (l.erase e) := by
  unfold held
  have := ((List.perm_cons_erase h).map (fun e : Nat × FcType × Nat => costOf w e.2.1 e.2.2)).sum_eq
  rw [this, List.map_cons, List.sum_cons]

theorem copy_fcType (t : Tlp) : t.copy.fcType = t.fcType := rfl
theorem copy_dataCredits (t : Tlp) : t.copy.dataCredits = t.dataCredits := rfl
theorem cost_copy (w : Credit) (t : Tlp) : cost w t.copy = cost w t := rfl
theorem cost_seq (w : Credit) (t : Tlp) (n : Nat) : cost w { t with seq := n } = cost w t := rfl

theorem units_copy (w : Credit) (l : List Tlp) : units w (l.map Tlp.copy) = units w l := by
  unfold units; rw [List.map_map]; rfl
theorem units_numbered (w : Credit) (l : List Tlp) : units w (numbered l) = units w l := by
  unfold units numbered
  congr 1
  apply List.ext_getElem
  · simp
  · intro n h1 h2
    simp only [List.getElem_map, List.getElem_mapIdx]
    rfl

theorem numbered_length (l : List Tlp) : (numbered l).length = l.length := by simp [numbered]
theorem numbered_append (l : List Tlp) (t : Tlp) : numbered (l ++ [t]) = numbered l ++ [{ t with seq := l.length % 4096 }] := by
  simp [numbered, List.mapIdx_append]
theorem numbered_getElem (l : List Tlp) (i : Nat) (h : i < (numbered l).length) :
    (numbered l)[i] = { l[i]'(by simpa [numbered] using h) with seq := i % 4096 } := by
  simp [numbered]

theorem subMask_lt (bits a b : Nat) : FcState.subMask bits a b < 2 ^ bits := by
  unfold FcState.subMask
  have h : (0 : Int) < ((2 ^ bits : Nat) : Int) := by exact_mod_cast Nat.two_pow_pos bits
  have h1 := Int.emod_nonneg ((a : Int) - b) (ne_of_gt h)
  have h2 := Int.emod_lt_of_pos ((a : Int) - b) h
  omega

theorem subMask_mod (bits L C : Nat) (h : C ≤ L) :
    FcState.subMask bits (L % 2 ^ bits) (C % 2 ^ bits) = (L - C) % 2 ^ bits := by
  unfold FcState.subMask
  have : (((L % 2 ^ bits : Nat) : Int) - ((C % 2 ^ bits : Nat) : Int)) % ((2 ^ bits : Nat) : Int) =
      (((L - C) % 2 ^ bits : Nat) : Int) := by
    rw [Int.natCast_mod, Int.natCast_mod, Int.natCast_mod, ← Int.sub_emod, Nat.cast_sub h]
  rw [this, Int.toNat_natCast]

/-- The credits available to the sender, in terms of the true (unbounded) counts. -/
theorem FcInv.avail {t : TxC} {acc del : List Tlp} {r : RxC} {dl : List Dllp} {w : Credit} (h : FcInv t acc r del dl w)
    (hi : (r.rx w).init ≠ 0) (hc : t.cap w.1 = true) (hdu : units w del ≤ units w acc) :
    ∃ L, units w acc + FcState.subMask (t.tx w).bits (t.tx w).limit (t.tx w).consumed = L ∧ (t.tx w).limit = L % 2 ^ bitsOf w ∧
      (r.rx w).init ≤ L ∧
      Chain (· % 2 ^ bitsOf w) (r.next w.1 ≠ 0) L (upds w dl) ((r.rx w).init + (units w del - held w r.dict)) := by
  obtain ⟨L, h1, h2, h3, h4⟩ := h.ch hi
  have hle := h4.le
  have hri := h.ri
  have hb : 2 ^ (bitsOf w - 1) ≤ 2 ^ bitsOf w := Nat.pow_le_pow_right (by decide) (Nat.sub_le _ _)
  refine ⟨L, ?_, h1 hc, h3, h4⟩
  rw [h1 hc, h.co, if_neg hi, h.tb, subMask_mod _ _ _ h2, Nat.mod_eq_of_lt (by omega)]
  omega

/-! ### The sender's events -/

theorem cost_of_fc {t : Tlp} {ty : FcType} (h : t.fcType = some ty) (w : Credit) : cost w t = costOf w ty t.dataCredits := by
  unfold cost; rw [h]

theorem SeqInv.del_units {bnd : Prop} {t : TxView} {r : RxView} {tl : List Tlp} {dl : List Dllp} {S : List Tlp} {i k : Nat}
    (h : SeqInv bnd t r tl dl S i k) (w : Credit) :
    units w t.accepted = units w r.delivered + units w tl + units w t.txq := by
  rw [h.acc, h.de, h.fl, units_append, units_copy, ← units_append w (List.take _ _), List.take_append_drop, units_numbered]

theorem Dir.del_units {bnd : Prop} {t : TxView} {r : RxView} {tl : List Tlp} {dl : List Dllp} (h : Dir bnd t r tl dl)
    (w : Credit) : units w t.accepted = units w r.delivered + units w tl + units w t.txq := by
  obtain ⟨S, i, k, hs⟩ := h.seq
  exact hs.del_units w

/-- The gate is open only if the credit suffices. -/
theorem FcCh.hasCredit {c : FcCh} {ty : FcType} {dc : Nat} (h : c.txHasCredit ty dc = true) (b : Bool) :
    (if b then dc else 1) ≤ (counters c (ty, b)).txAvail := by
  cases ty <;> cases b <;> simp only [FcCh.txHasCredit, decide_eq_true_eq, counters] at h ⊢ <;> simp <;> omega

theorem Dir.send {bnd : Prop} {p p' : Port} {r : RxView} {tl : List Tlp} {dl : List Dllp} {x : Tlp}
    (h : Dir bnd p.txv r tl dl) (hs : p.send x = some p') : Dir bnd p'.txv r tl dl := by
  unfold Port.send at hs
  split at hs
  · cases hs
  · next ty hty =>
    split at hs
    · next hg =>
      injection hs with hs; subst hs
      obtain ⟨h2, hcr⟩ := hg
      obtain ⟨f1, f2, f3⟩ := FcCh.txConsume_flags p.fc ty x.dataCredits
      have hcap : ∀ y, p.fc.cap y = true := h.fi1c (h.fi21 h2)
      constructor
      · obtain ⟨S, i, k, hs⟩ := h.seq
        refine ⟨S, i, k, ?_, hs.ntx, hs.il, hs.fl, hs.de, hs.nrx, hs.nak, hs.rt, hs.ack, hs.ch⟩
        have := hs.acc
        simp only [Port.txv] at this ⊢
        rw [this, List.append_assoc]
      · intro w
        have hw := h.fc w
        have hdu : units w r.delivered ≤ units w p.accepted := by
          have := h.del_units w; simp only [Port.txv] at this; omega
        have hcw : ((p.fc.txConsume ty x.dataCredits).txv.tx w) =
            { p.fc.txv.tx w with consumed := if ty = w.1 then (if (p.fc.txv.tx w).init = 0 then (p.fc.txv.tx w).consumed else
                ((p.fc.txv.tx w).consumed + (if w.2 then x.dataCredits else 1)) % 2 ^ (p.fc.txv.tx w).bits)
                else (p.fc.txv.tx w).consumed } := by
          show (counters _ w).tx = _
          rw [FcCh.counters_txConsume]
          by_cases hh : ty = w.1
          · rw [if_pos hh, if_pos hh]; exact FcState.txConsume_tx _ _
          · rw [if_neg hh, if_neg hh]; rfl
        have hu : units w (p.accepted ++ [x]) = units w p.accepted + costOf w ty x.dataCredits := by
          rw [units_append, units_single, cost_of_fc hty]
        have hcp := hw.cp (hcap w.1)
        constructor
        · simp only [Port.txv]; rw [hcw]; exact hw.tb
        · exact hw.rb
        · exact hw.ri
        · exact hw.hd
        · exact hw.al
        · exact hw.rc
        · simp only [Port.txv]; rw [hcw, hu]
          have hco := hw.co
          simp only [Port.txv] at hco hcp
          have htb := hw.tb
          simp only [Port.txv] at htb
          simp only [hco, hcp, htb]
          by_cases h0 : (r.fc.rx w).init = 0
          · simp [h0]
          · simp only [h0, if_false, costOf]
            by_cases hh : ty = w.1
            · simp only [hh, if_true]; exact Nat.mod_add_mod _ _ _
            · simp [hh]
        · intro _; simp only [Port.txv]; rw [hcw]; exact hcp
        · intro h0
          obtain ⟨L, e1, e2, e3, e4⟩ := hw.avail h0 (hcap w.1) hdu
          refine ⟨L, fun _ => ?_, ?_, e3, e4⟩
          · simp only [Port.txv]; rw [hcw]; exact e2
          · simp only [Port.txv] at e1 ⊢
            rw [hu]
            unfold costOf
            split
            · next hh =>
              have hav := FcCh.hasCredit hcr w.2
              have : (ty, w.2) = w := by rw [hh]
              rw [this] at hav
              have hni : (counters p.fc w).txInfinite = false := by
                unfold FcState.txInfinite
                simp only [Port.txv] at hcp
                have : (counters p.fc w).txInit = (r.fc.rx w).init := hcp
                rw [this]; simpa using h0
              unfold FcState.txAvail at hav
              rw [hni] at hav
              simp only [Bool.false_eq_true, if_false] at hav
              have e1' : units w p.accepted + FcState.subMask (counters p.fc w).bits (counters p.fc w).txLimit
                (counters p.fc w).txConsumed = L := e1
              omega
            · have e1' : units w p.accepted + _ = L := e1
              omega
        · exact hw.inf
        · intro hf; simp only [Port.txv, FcCh.txv] at hf; rw [f3, h2] at hf; cases hf
      · exact h.types
      · simp only [Port.txv, FcCh.txv]; rw [f2, f3]; exact h.fi21
      · simp only [Port.txv, FcCh.txv]; rw [f1, f2]; exact h.fi1c
      · intro hf; simp only [Port.txv, FcCh.txv] at hf; rw [f3, h2] at hf; cases hf
      · intro y hy
        simp only [Port.txv, List.mem_append, List.mem_singleton] at hy
        rcases hy with hy | hy
        · exact h.fct y hy
        · rw [hy, hty]; simp
      · exact h.tokn
      · exact h.tokl
    · cases hs

theorem Dir.transmitTlp {bnd : Prop} {p : Port} {r : RxView} {tl : List Tlp} {dl : List Dllp}
    (h : Dir bnd p.txv r tl dl) (x : Tlp) (rest : List Tlp) (hq : p.txq = x :: rest) :
    Dir bnd { p.txv with txq := rest, nextTx := (p.nextTx + 1) % 4096, retry := p.retry ++ [{ x with seq := p.nextTx }] }
      r (tl ++ [{ x with seq := p.nextTx }]) dl := by
  refine ⟨?_, h.fc, h.types, h.fi21, h.fi1c, h.acc0, h.fct, h.tokn, h.tokl⟩
  obtain ⟨S, i, k, hs⟩ := h.seq
  have hki : k ≤ i := hs.ch.le
  have hil := hs.il
  have hn := hs.ntx
  simp only [Port.txv] at hn
  refine ⟨S ++ [x], i, k, ?_, ?_, ?_, ?_, ?_, hs.nrx, hs.nak, ?_, hs.ack, hs.ch⟩
  · have := hs.acc; simp only [Port.txv] at this ⊢; rw [this, hq]; simp
  · simp only [List.length_append, List.length_singleton]; rw [hn]; omega
  · simp; omega
  · rw [numbered_append, List.drop_append_of_le_length (by rw [numbered_length]; omega), hs.fl, hn]
  · rw [numbered_append, List.take_append_of_le_length (by rw [numbered_length]; omega)]; exact hs.de
  · have := hs.rt; simp only [Port.txv] at this ⊢
    rw [numbered_append, List.drop_append_of_le_length (by rw [numbered_length]; omega), this, hn]

/-! ### Received DLLPs -/

theorem purge_ok (n : Nat) (seq : Nat) (p : Port) (k V : Nat) (hp : p.ackd = (k + 4095) % 4096) (hs : seq = (V + 4095) % 4096)
    (hkV : k ≤ V) (hlen : (V - k) % 4096 ≤ p.retry.length) (hn : (V - k) % 4096 ≤ n) :
    Port.purge seq n p = .ok { p with retry := p.retry.drop ((V - k) % 4096), ackd := (k + (V - k) % 4096 + 4095) % 4096 } := by
  induction n generalizing p k with
  | zero =>
    have : (V - k) % 4096 = 0 := by omega
    simp only [Port.purge, this, List.drop_zero, Nat.add_zero, ← hp]
  | succ n ih =>
    unfold Port.purge
    by_cases hz : (V - k) % 4096 = 0
    · rw [if_neg (by rw [hs, hp]; omega)]
      simp only [hz, List.drop_zero, Nat.add_zero, ← hp]
    · rw [if_pos (by rw [hs, hp]; omega)]
      have hm : (V - (k + 1)) % 4096 + 1 = (V - k) % 4096 := by omega
      cases hr : p.retry with
      | nil => rw [hr] at hlen; simp at hlen; omega
      | cons x rest =>
        rw [hr] at hlen
        simp only [List.length_cons] at hlen
        simp only
        rw [ih _ (k + 1) (by simp only [hp]; omega) (by omega) (by simp only; omega) (by omega)]
        have e1 : rest.drop ((V - (k + 1)) % 4096) = (x :: rest).drop ((V - k) % 4096) := by rw [← hm, List.drop_succ_cons]
        have e2 : (k + 1 + (V - (k + 1)) % 4096 + 4095) % 4096 = (k + (V - k) % 4096 + 4095) % 4096 := by congr 1; omega
        simp only [e1, e2]

theorem acks_cons_ack {d : Dllp} {dl : List Dllp} (h : d.type = Dllp.ACK) : acks (d :: dl) = d.seq :: acks dl := by
  simp [acks, h]
theorem acks_cons_ne {d : Dllp} {dl : List Dllp} (h : d.type ≠ Dllp.ACK) : acks (d :: dl) = acks dl := by
  simp [acks, h]
theorem upds_cons_eq {d : Dllp} {dl : List Dllp} {w : Credit} (h : d.type = updType w.1) :
    upds w (d :: dl) = fld w d :: upds w dl := by simp [upds, h]
theorem upds_cons_ne {d : Dllp} {dl : List Dllp} {w : Credit} (h : d.type ≠ updType w.1) : upds w (d :: dl) = upds w dl := by
  simp [upds, h]

theorem updType_inj {a b : FcType} : updType a = updType b ↔ a = b := by cases a <;> cases b <;> decide
theorem init_ne_upd (a b : FcType) : init1Type a ≠ updType b ∧ init2Type a ≠ updType b := by cases a <;> cases b <;> decide
theorem ack_ne_upd (a : FcType) : Dllp.ACK ≠ updType a := by cases a <;> decide
theorem ack_ne_init (a : FcType) : init1Type a ≠ Dllp.ACK ∧ init2Type a ≠ Dllp.ACK ∧ updType a ≠ Dllp.ACK := by
  cases a <;> decide
theorem init_inj {a b : FcType} : (init1Type a = init1Type b ↔ a = b) ∧ (init2Type a = init2Type b ↔ a = b) ∧
    init1Type a ≠ init2Type b := by cases a <;> cases b <;> decide

/-- Dropping a DLLP that is no update keeps the flow-control part. -/
theorem FcInv.drop {t : TxC} {acc del : List Tlp} {r : RxC} {dl : List Dllp} {w : Credit} {d : Dllp}
    (h : FcInv t acc r del (d :: dl) w) (hd : d.type ≠ updType w.1) : FcInv t acc r del dl w := by
  have e := upds_cons_ne (dl := dl) hd
  refine ⟨h.tb, h.rb, h.ri, h.hd, h.al, h.rc, h.co, h.cp, ?_, ?_, fun hf x hx => h.ini hf x (List.mem_cons_of_mem _ hx)⟩
  · intro h0; have := h.ch h0; rw [e] at this; exact this
  · intro h0; have := h.inf h0; rw [e] at this; exact this

/-- Before initialisation is complete an update can be dropped as well. -/
theorem FcInv.dropUpd {t : TxC} {acc del : List Tlp} {r : RxC} {dl : List Dllp} {w : Credit} {d : Dllp}
    (h : FcInv t acc r del (d :: dl) w) (hd : d.type = updType w.1) (h1 : del = []) (h2 : acc = []) :
    FcInv t acc r del dl w := by
  have e := upds_cons_eq (dl := dl) hd
  subst h1 h2
  refine ⟨h.tb, h.rb, h.ri, h.hd, h.al, h.rc, h.co, h.cp, ?_, ?_, fun hf x hx => h.ini hf x (List.mem_cons_of_mem _ hx)⟩
  · intro h0
    obtain ⟨L, l1, l2, l3, l4⟩ := h.ch h0
    rw [e] at l4
    obtain ⟨V, v1, v2, v3⟩ := l4
    have := v3.le
    simp only [units_nil, Nat.zero_sub, Nat.add_zero] at this
    have hV : L = V := by omega
    exact ⟨L, l1, l2, l3, hV ▸ v3⟩
  · intro h0 v hv
    refine h.inf h0 v ?_
    rw [e]; exact List.mem_cons_of_mem _ hv

/-- What an ACK does to the sender: everything up to its sequence number leaves the retry buffer. -/
theorem Dir.recvAck {bnd : Prop} {p : Port} {r : RxView} {tl : List Tlp} {d : Dllp} {dl : List Dllp}
    (h : Dir bnd p.txv r tl (d :: dl)) (hb : bnd → p.retry.length ≤ 2048) (hd : d.type = Dllp.ACK) :
    ∃ p', p.handleDllp d = .ok p' ∧ Dir bnd p'.txv r tl dl ∧ p' = { p with retry := p'.retry, ackd := p'.ackd } ∧
      (p.retry.length ≤ 2048 → ∃ S k V, p.accepted = S ++ p.txq ∧ V ≤ r.delivered.length ∧ k ≤ V ∧ d.seq = (V + 4095) % 4096 ∧
        p.retry = (numbered S).drop k ∧ p'.retry = (numbered S).drop V) := by
  obtain ⟨S, i, k, hs⟩ := h.seq
  have hch := hs.ch
  rw [acks_cons_ack hd] at hch
  obtain ⟨V, hV, hkV, hVi⟩ := hch
  have hVi' := hVi.le
  have hil := hs.il
  have hrt := hs.rt
  have hack := hs.ack
  have hntx := hs.ntx
  simp only [Port.txv] at hrt hack hntx
  have hrl : p.retry.length = S.length - k := by rw [hrt, List.length_drop, numbered_length]
  have hfc : ∀ w, FcInv p.txv.fc p.txv.accepted r.fc r.delivered dl w := fun w =>
    (h.fc w).drop (by rw [hd]; exact ack_ne_upd _)
  have hty : ∀ x ∈ dl, x.type = Dllp.ACK ∨ ∃ ty, x.type = init1Type ty ∨ x.type = init2Type ty ∨ x.type = updType ty :=
    fun x hx => h.types x (List.mem_cons_of_mem _ hx)
  have hlen : r.delivered.length = i := by rw [hs.de, List.length_map, List.length_take, numbered_length]; omega
  have hsame : Chain (fun V => (V + 4095) % 4096) (bnd ∧ r.sendAck = false ∧ r.ackTimer = false) V (acks dl) i →
      ((bnd → V = k)) → Dir bnd p.txv r tl dl := fun hc hbk =>
    ⟨⟨S, i, k, hs.acc, hs.ntx, hs.il, hs.fl, hs.de, hs.nrx, hs.nak, hs.rt, hs.ack,
      hc.lower hkV fun x => ⟨x, (hbk x.1).symm⟩⟩, hfc, hty, h.fi21, h.fi1c, h.acc0, h.fct, h.tokn, h.tokl⟩
  have hpe : p = { p with retry := p.retry, ackd := p.ackd } := rfl
  have e1 : FcState.subMask 12 ((p.nextTx + 4095) % 4096) d.seq = (S.length - V) % 4096 := by
    have e : (p.nextTx + 4095) % 4096 = (S.length + 4095) % 2 ^ 12 := by rw [hntx]; omega
    rw [e, hV]
    have := subMask_mod 12 (S.length + 4095) (V + 4095) (by omega)
    simp only [Nat.reducePow] at this ⊢
    rw [this, Nat.add_sub_add_right]
  have e2 : FcState.subMask 12 d.seq p.ackd = (V - k) % 4096 := by
    rw [hV, hack]
    have := subMask_mod 12 (V + 4095) (k + 4095) (by omega)
    simp only [Nat.reducePow] at this
    rw [this, Nat.add_sub_add_right]
  unfold Port.handleDllp
  rw [if_neg (by rw [hd]; decide), if_pos (.inl hd), e1, e2]
  by_cases c1 : (S.length - V) % 4096 > 2048
  · rw [if_pos c1]
    have hnb : ¬ bnd := fun b => by have := hb b; omega
    exact ⟨p, rfl, hsame hVi fun b => (hnb b).elim, hpe, fun b => by omega⟩
  rw [if_neg c1]
  by_cases c2 : (V - k) % 4096 > 2048
  · rw [if_pos c2]
    have hnb : ¬ bnd := fun b => by have := hb b; omega
    exact ⟨p, rfl, hsame hVi fun b => (hnb b).elim, hpe, fun b => by omega⟩
  rw [if_neg c2, purge_ok 4096 d.seq p k V hack hV hkV (by omega) (by omega)]
  simp only
  rw [if_neg (by rw [hd]; decide)]
  have hvk : bnd → (V - k) % 4096 = V - k := fun b => by have := hb b; omega
  obtain ⟨a, ha⟩ : ∃ a, a = (k + (V - k) % 4096 + 4095) % 4096 := ⟨_, rfl⟩
  rw [← ha]
  refine ⟨{ p with retry := p.retry.drop ((V - k) % 4096), ackd := a }, rfl,
    ⟨⟨S, i, k + (V - k) % 4096, hs.acc, hs.ntx, hs.il, hs.fl, hs.de, hs.nrx, hs.nak, ?_, ha, ?_⟩, hfc, hty,
    h.fi21, h.fi1c, h.acc0, h.fct, h.tokn, h.tokl⟩, rfl, fun b => ⟨S, k, V, hs.acc, by omega, hkV, hV, hrt, ?_⟩⟩
  · simp only [Port.txv]; rw [hrt, List.drop_drop]
  · exact hVi.lower (by omega) fun x => ⟨x, by rw [hvk x.1]; omega⟩
  · simp only; rw [hrt, List.drop_drop, show (V - k) % 4096 = V - k by omega]; congr 1; omega

theorem FcCh.cap_of_counters {c c' : FcCh} (h : ∀ w, counters c' w = counters c w) : (fun w => (counters c' w).tx) = fun w => (counters c w).tx := by
  funext w; rw [h]

theorem Dir.hi_eq {bnd : Prop} {t : TxView} {r : RxView} {tl : List Tlp} {dl : List Dllp} (h : Dir bnd t r tl dl)
    (h0 : t.fc.fi2 = false) : r.delivered = [] ∧ t.accepted = [] := by
  have ha := h.acc0 h0
  obtain ⟨S, i, k, hs⟩ := h.seq
  have := hs.acc
  rw [ha] at this
  obtain ⟨rfl, -⟩ := List.append_eq_nil_iff.1 this.symm
  exact ⟨by rw [hs.de]; simp [numbered], ha⟩

/-- What a flow-control DLLP does to the sender; no assertion fails. -/
theorem Dir.recvFc {bnd : Prop} {p : Port} {r : RxView} {tl : List Tlp} {d : Dllp} {dl : List Dllp}
    (h : Dir bnd p.txv r tl (d :: dl)) (ty : FcType)
    (hd : d.type = init1Type ty ∨ d.type = init2Type ty ∨ d.type = updType ty) :
    ∃ c', p.fc.handleFc d = .ok c' ∧ Dir bnd { p with fc := c' }.txv r tl dl := by
  have hna : d.type ≠ Dllp.ACK := by
    obtain ⟨a, b, c⟩ := ack_ne_init ty
    rcases hd with e | e | e <;> rw [e] <;> assumption
  have hseq : ∀ c', ∃ S i k, SeqInv bnd ({ p with fc := c' } : Port).txv r tl dl S i k := fun c' => by
    obtain ⟨S, i, k, hs⟩ := h.seq
    have hc := hs.ch
    rw [acks_cons_ne hna] at hc
    exact ⟨S, i, k, hs.acc, hs.ntx, hs.il, hs.fl, hs.de, hs.nrx, hs.nak, hs.rt, hs.ack, hc⟩
  have hty : ∀ x ∈ dl, x.type = Dllp.ACK ∨ ∃ ty, x.type = init1Type ty ∨ x.type = init2Type ty ∨ x.type = updType ty :=
    fun x hx => h.types x (List.mem_cons_of_mem _ hx)
  cases h1 : p.fc.fi1 with
  | false =>
    have h2 : p.fc.fi2 = false := by
      cases e : p.fc.fi2 with
      | false => rfl
      | true => have := h.fi21 e; simp only [Port.txv, FcCh.txv] at this; rw [h1] at this; cases this
    refine ⟨_, FcCh.handleFc_fi1 _ _ h1, ?_⟩
    obtain ⟨hdel, hacc⟩ := h.hi_eq h2
    rcases or_assoc.2 hd with hdi | hdu
    · -- InitFC: the credits are taken over
      obtain ⟨k1, k2, k3, k4, k5, k6, k7⟩ := FcCh.init1_init p.fc d ty hdi
      have hnu : ∀ w : Credit, d.type ≠ updType w.1 := fun w => by
        rcases hdi with e | e <;> rw [e]
        · exact (init_ne_upd ty w.1).1
        · exact (init_ne_upd ty w.1).2
      refine ⟨hseq _, fun w => ?_, hty, ?_, ?_, fun _ => hacc, h.fct, h.tokn, h.tokl⟩
      · have hw := (h.fc w).drop (hnu w)
        have hx : (p.fc.init1 d).txv.tx w =
            if w.1 = ty then ⟨(p.fc.txv.tx w).bits, fld w d, (p.fc.txv.tx w).consumed, fld w d⟩ else p.fc.txv.tx w := by
          show (counters _ w).tx = _
          rw [k1]; split <;> rfl
        have hfv : w.1 = ty → fld w d = (r.fc.rx w).init := fun e =>
          (h.fc w).ini h2 d List.mem_cons_self (by rw [e]; exact hdi)
        refine ⟨?_, hw.rb, hw.ri, hw.hd, hw.al, hw.rc, ?_, ?_, ?_, hw.inf, ?_⟩
        · simp only [Port.txv]; rw [hx]; split
          · exact hw.tb
          · exact hw.tb
        · simp only [Port.txv]; rw [hx]; split
          · exact hw.co
          · exact hw.co
        · intro hc
          simp only [Port.txv] at hc ⊢; rw [hx]; split
          · next e => exact hfv e
          · next e =>
            apply hw.cp
            have : (p.fc.init1 d).cap w.1 = true := hc
            rw [k2, decide_eq_false e, Bool.false_or] at this
            exact this
        · intro h0
          obtain ⟨L, l1, l2, l3, l4⟩ := hw.ch h0
          refine ⟨L, fun hc => ?_, l2, l3, l4⟩
          simp only [Port.txv] at hc ⊢; rw [hx]; split
          · next e =>
            simp only; rw [hfv e]
            have hle := l4.le
            rw [hdel] at hle
            simp only [units_nil, Nat.zero_sub, Nat.add_zero] at hle
            have hLe : L = (r.fc.rx w).init := by omega
            have hb : 2 ^ (bitsOf w - 1) ≤ 2 ^ bitsOf w := Nat.pow_le_pow_right (by decide) (Nat.sub_le _ _)
            have := hw.ri
            rw [hLe, Nat.mod_eq_of_lt (by omega)]
          · next e =>
            apply l1
            have : (p.fc.init1 d).cap w.1 = true := hc
            rw [k2, decide_eq_false e, Bool.false_or] at this
            exact this
        · intro _; exact hw.ini h2
      · intro hf; simp only [Port.txv, FcCh.txv] at hf; rw [k4, h2] at hf; cases hf
      · intro hf x
        simp only [Port.txv, FcCh.txv] at hf ⊢
        rw [k3] at hf
        simp only [Bool.and_eq_true] at hf
        cases x
        · exact hf.1.1
        · exact hf.1.2
        · exact hf.2
    · -- UpdateFC: ignored
      rw [FcCh.init1_update _ _ ty hdu]
      refine ⟨hseq _, fun w => ?_, hty, h.fi21, h.fi1c, h.acc0, h.fct, h.tokn, h.tokl⟩
      by_cases e : d.type = updType w.1
      · exact FcInv.dropUpd (h.fc w) e hdel hacc
      · exact (h.fc w).drop e
  | true =>
    cases h2 : p.fc.fi2 with
    | false =>
      obtain ⟨hdel, hacc⟩ := h.hi_eq h2
      obtain ⟨g1, g2⟩ := FcCh.handleFc_fi2 p.fc d h1 h2 ty
      have hfc : ∀ w, FcInv p.txv.fc p.txv.accepted r.fc r.delivered dl w := fun w => by
        by_cases e : d.type = updType w.1
        · exact FcInv.dropUpd (h.fc w) e hdel hacc
        · exact (h.fc w).drop e
      rcases hd with hd1 | hd2
      · exact ⟨_, g1 hd1, hseq _, hfc, hty, h.fi21, h.fi1c, h.acc0, h.fct, h.tokn, h.tokl⟩
      · refine ⟨_, g2 hd2, hseq _, fun w => ?_, hty, fun _ => h1, h.fi1c, fun hf => ?_, h.fct, h.tokn, h.tokl⟩
        · have hw := hfc w
          refine ⟨hw.tb, hw.rb, hw.ri, hw.hd, hw.al, hw.rc, hw.co, hw.cp, hw.ch, hw.inf, fun hf => ?_⟩
          cases hf
        · cases hf
    | true =>
      rcases or_assoc.2 hd with hdi | hdu
      · refine ⟨_, FcCh.handleFc_init _ _ ty hdi h1 h2, hseq _, fun w => ?_, hty, h.fi21, h.fi1c, h.acc0, h.fct, h.tokn, h.tokl⟩
        refine (h.fc w).drop ?_
        rcases hdi with e | e <;> rw [e]
        · exact (init_ne_upd ty w.1).1
        · exact (init_ne_upd ty w.1).2
      · have hcap : ∀ y, p.fc.cap y = true := h.fi1c (h.fi21 h2)
        obtain ⟨c', e0, k1, k2, k3, k4, k5, k6, k7⟩ := FcCh.handleFc_update p.fc d ty hdu h1 h2 (fun b hb => by
          have hw := h.fc (ty, b)
          have := hw.cp (hcap ty)
          have hb' : (p.fc.txv.tx (ty, b)).init = 0 := hb
          simp only [Port.txv] at this
          rw [hb'] at this
          refine hw.inf this.symm _ ?_
          rw [upds_cons_eq (w := (ty, b)) hdu]; exact List.mem_cons_self)
        refine ⟨c', e0, hseq _, fun w => ?_, hty, fun _ => k3, fun _ x => ?_, fun hf => ?_, h.fct, h.tokn, h.tokl⟩
        · have hw := h.fc w
          by_cases e : w.1 = ty
          · have hx : c'.txv.tx w = { p.fc.txv.tx w with limit := fld w d } := by
              show (counters _ w).tx = _
              rw [k1, if_pos e]; rfl
            have hu := upds_cons_eq (w := w) (dl := dl) (by rw [hdu, e] : d.type = updType w.1)
            refine ⟨?_, hw.rb, hw.ri, hw.hd, hw.al, hw.rc, ?_, ?_, ?_, ?_, ?_⟩
            · simp only [Port.txv]; rw [hx]; exact hw.tb
            · simp only [Port.txv]; rw [hx]; exact hw.co
            · intro _; simp only [Port.txv]; rw [hx]; exact hw.cp (hcap _)
            · intro h0
              obtain ⟨L, l1, l2, l3, l4⟩ := hw.ch h0
              rw [hu] at l4
              obtain ⟨V, v1, v2, v3⟩ := l4
              refine ⟨V, fun _ => ?_, Nat.le_trans l2 v2, Nat.le_trans l3 v2, v3⟩
              simp only [Port.txv]; rw [hx]; exact v1
            · intro h0 v hv
              refine hw.inf h0 v ?_
              rw [hu]; exact List.mem_cons_of_mem _ hv
            · intro hf; simp only [Port.txv, FcCh.txv] at hf; rw [k4] at hf; cases hf
          · have hx : c'.txv.tx w = p.fc.txv.tx w := by
              show (counters _ w).tx = _
              rw [k1, if_neg e]; rfl
            have hw := hw.drop (by rw [hdu]; exact fun q => e (updType_inj.1 q).symm)
            refine ⟨?_, hw.rb, hw.ri, hw.hd, hw.al, hw.rc, ?_, ?_, ?_, hw.inf, ?_⟩
            · simp only [Port.txv]; rw [hx]; exact hw.tb
            · simp only [Port.txv]; rw [hx]; exact hw.co
            · intro _; simp only [Port.txv]; rw [hx]; exact hw.cp (hcap _)
            · intro h0
              obtain ⟨L, l1, l2, l3, l4⟩ := hw.ch h0
              refine ⟨L, fun _ => ?_, l2, l3, l4⟩
              simp only [Port.txv]; rw [hx]; exact l1 (hcap _)
            · intro hf; simp only [Port.txv, FcCh.txv] at hf; rw [k4] at hf; cases hf
        · simp only [Port.txv, FcCh.txv]; rw [k2]; exact hcap x
        · simp only [Port.txv, FcCh.txv] at hf; rw [k4] at hf; cases hf

end Pcie
