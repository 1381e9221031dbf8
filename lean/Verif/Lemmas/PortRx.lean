/-
The receiver's events preserve the invariant of a direction.
-/
import Verif.Lemmas.Port
namespace Pcie
open Spec

theorem drop_eq_cons {α : Type} {l : List α} {i : Nat} {x : α} {tl : List α} (h : x :: tl = l.drop i) :
    ∃ hi : i < l.length, x = l[i] ∧ tl = l.drop (i + 1) := by
  have hi : i < l.length := by
    by_contra hc
    rw [List.drop_eq_nil_of_le (by omega)] at h; cases h
  rw [List.drop_eq_getElem_cons hi] at h
  injection h with h1 h2
  exact ⟨hi, h1, h2⟩

theorem Dir.recvTlp {bnd : Prop} {t : TxView} {p : Port} {x : Tlp} {tl : List Tlp} {dl : List Dllp}
    (h : Dir bnd t p.rxv (x :: tl) dl) :
    ∃ p', p.recvTlp x = .ok p' ∧ Dir bnd t p'.rxv tl dl ∧ p'.txv = p.txv ∧ p'.fc.fi1 = p.fc.fi1 ∧ p'.fc.fi2 = p.fc.fi2 ∧
      p'.fcInitialized = p.fcInitialized := by
  obtain ⟨S, i, k, hs⟩ := h.seq
  obtain ⟨hi, hx, htl⟩ := drop_eq_cons hs.fl
  have hiS : i < S.length := by rw [numbered_length] at hi; exact hi
  rw [numbered_getElem] at hx
  have hseq : x.seq = p.nextRx := by rw [hx]; exact hs.nrx.symm
  have hmem : S[i] ∈ t.accepted := by rw [hs.acc]; exact List.mem_append_left _ (List.getElem_mem _)
  have hfc := h.fct _ hmem
  obtain ⟨ty, hty⟩ := Option.ne_none_iff_exists'.1 hfc
  have hxt : x.fcType = some ty := by rw [hx]; exact hty
  unfold Port.recvTlp
  rw [if_pos hseq]
  simp only [FcCh.process, copy_fcType, hxt, copy_dataCredits]
  obtain ⟨k1, k2, k3⟩ := FcCh.rxConsume_dict p.fc ty x.dataCredits
  refine ⟨_, rfl, ?_, ?_, ?_, ?_, rfl⟩
  · constructor
    · refine ⟨S, i + 1, k, hs.acc, hs.ntx, hiS, htl, ?_, ?_, rfl, hs.rt, hs.ack, ?_⟩
      · have := hs.de
        simp only [Port.rxv] at this ⊢
        rw [this, List.take_add_one, List.map_append, List.getElem?_eq_getElem hi, Option.toList_some, numbered_getElem, ← hx]
        rfl
      · have := hs.nrx
        simp only [Port.rxv] at this ⊢
        rw [this]; omega
      · refine hs.ch.mono (Nat.le_succ _) fun e => ?_
        simp only [Port.rxv, Bool.true_eq_false, and_false] at e
    · intro w
      have hw := h.fc w
      have hu : units w (p.delivered ++ [x.copy]) = units w p.delivered + costOf w ty x.dataCredits := by
        rw [units_append, units_single, cost_copy, cost_of_fc hxt]
      have hh : held w (p.fc.dict ++ [(p.fc.nextToken, ty, x.dataCredits)]) = held w p.fc.dict + costOf w ty x.dataCredits := by
        rw [held_append]; simp [held]
      have hdiff : units w p.delivered + costOf w ty x.dataCredits - (held w p.fc.dict + costOf w ty x.dataCredits) =
          units w p.delivered - held w p.fc.dict := by omega
      have hr : (counters (p.fc.rxConsume ty x.dataCredits) w).rx =
          { p.rxv.fc.rx w with recv := if ty = w.1 then (if (p.rxv.fc.rx w).init = 0 then (p.rxv.fc.rx w).recv else
              ((p.rxv.fc.rx w).recv + (if w.2 then x.dataCredits else 1)) % 2 ^ (p.rxv.fc.rx w).bits)
              else (p.rxv.fc.rx w).recv } := by
        rw [FcCh.counters_rxConsume]
        by_cases e : ty = w.1
        · rw [if_pos e, if_pos e]; exact FcState.rxConsume_rx _ _
        · rw [if_neg e, if_neg e]; rfl
      have hr' : ∀ dd nn, (FcCh.rxv { p.fc.rxConsume ty x.dataCredits with dict := dd, nextToken := nn }).rx w =
          (counters (p.fc.rxConsume ty x.dataCredits) w).rx := by
        intro dd nn; obtain ⟨a, b⟩ := w; cases a <;> cases b <;> rfl
      have hn : ∀ dd nn, (FcCh.rxv { p.fc.rxConsume ty x.dataCredits with dict := dd, nextToken := nn }).next =
          p.rxv.fc.next := by
        intro dd nn
        refine Eq.trans ?_ k3
        funext a; cases a <;> rfl
      simp only [Port.rxv]
      constructor
      · exact hw.tb
      · rw [hr', hr]; exact hw.rb
      · rw [hr', hr]; exact hw.ri
      · have := hw.hd
        simp only [Port.rxv, FcCh.rxv] at this ⊢
        rw [hu, k1, k2, hh]; omega
      · have := hw.al
        rw [hr', hr]
        simp only [Port.rxv, FcCh.rxv] at this ⊢
        rw [hu, k1, k2, hh, hdiff]; exact this
      · have := hw.rc
        have hb := hw.rb
        rw [hr', hr, hu]
        simp only [Port.rxv] at this hb ⊢
        rw [this, hb]
        by_cases h0 : (p.fc.rxv.rx w).init = 0
        · simp [h0]
        · simp only [h0, if_false, costOf]
          by_cases e : ty = w.1
          · simp only [e, if_true]; exact Nat.mod_add_mod _ _ _
          · simp [e]
      · rw [hr', hr]; exact hw.co
      · rw [hr', hr]; exact hw.cp
      · rw [hr', hr, hn]
        intro h0
        obtain ⟨L, l1, l2, l3, l4⟩ := hw.ch h0
        refine ⟨L, l1, l2, l3, ?_⟩
        have e : (FcCh.rxv { p.fc.rxConsume ty x.dataCredits with dict := (p.fc.rxConsume ty x.dataCredits).dict ++ [((p.fc.rxConsume ty x.dataCredits).nextToken, ty, x.dataCredits)], nextToken := (p.fc.rxConsume ty x.dataCredits).nextToken + 1 }).dict = p.fc.dict ++ [(p.fc.nextToken, ty, x.dataCredits)] := by
          simp only [FcCh.rxv]; rw [k1, k2]
        rw [e, hu, hh, hdiff]
        exact l4
      · rw [hr', hr]; exact hw.inf
      · rw [hr', hr]; exact hw.ini
    · exact h.types
    · exact h.fi21
    · exact h.fi1c
    · exact h.acc0
    · exact h.fct
    · have h1 := h.tokn
      have h2 := h.tokl
      simp only [Port.rxv, FcCh.rxv] at h1 h2 ⊢
      rw [k1, k2, List.map_append, List.nodup_append]
      refine ⟨h1, by simp, ?_⟩
      intro a ha b hb
      simp only [List.map_cons, List.map_nil, List.mem_singleton] at hb
      obtain ⟨e, he, rfl⟩ := List.mem_map.1 ha
      have := h2 e he
      omega
    · have h2 := h.tokl
      simp only [Port.rxv, FcCh.rxv] at h2 ⊢
      rw [k1, k2]
      intro e he
      rcases List.mem_append.1 he with he | he
      · have := h2 e he; omega
      · simp only [List.mem_singleton] at he; rw [he]; exact Nat.lt_succ_self _
  · have := FcCh.rxConsume_txv p.fc ty x.dataCredits
    show TxView.mk _ _ _ _ _ (FcCh.txv _) = TxView.mk _ _ _ _ _ _
    rw [← this]
    congr 1
  · cases ty <;> rfl
  · cases ty <;> rfl

theorem Dir.release {bnd : Prop} {t : TxView} {p : Port} {tl : List Tlp} {dl : List Dllp}
    (h : Dir bnd t p.rxv tl dl) (token : Nat) : Dir bnd t (p.release token).rxv tl dl := by
  unfold Port.release
  split
  · unfold FcCh.releaseToken
    split
    · next tok ty dc hf =>
      have hm : (tok, ty, dc) ∈ p.fc.dict := List.mem_of_find?_eq_some hf
      have hro : ∀ w, counters (FcCh.rxRelease { p.fc with dict := p.fc.dict.erase (tok, ty, dc) } ty dc) w =
          if ty = w.1 then (counters p.fc w).rxRelease (if w.2 then dc else 1) else counters p.fc w := by
        intro w
        rw [FcCh.counters_rxRelease]
        obtain ⟨a, b⟩ := w
        cases a <;> cases b <;> rfl
      obtain ⟨k1, k2, k3⟩ := FcCh.rxRelease_dict { p.fc with dict := p.fc.dict.erase (tok, ty, dc) } ty dc
      constructor
      · obtain ⟨S, i, k, hs⟩ := h.seq
        exact ⟨S, i, k, hs.acc, hs.ntx, hs.il, hs.fl, hs.de, hs.nrx, hs.nak, hs.rt, hs.ack, hs.ch⟩
      · intro w
        have hw := h.fc w
        have he := held_erase w _ _ hm
        have hr : (counters (FcCh.rxRelease { p.fc with dict := p.fc.dict.erase (tok, ty, dc) } ty dc) w).rx =
            { p.rxv.fc.rx w with alloc := if ty = w.1 then (if (p.rxv.fc.rx w).init = 0 then (p.rxv.fc.rx w).alloc else
                ((p.rxv.fc.rx w).alloc + (if w.2 then dc else 1)) % 2 ^ (p.rxv.fc.rx w).bits)
                else (p.rxv.fc.rx w).alloc } := by
          rw [hro]
          by_cases e : ty = w.1
          · rw [if_pos e, if_pos e]; exact FcState.rxRelease_rx _ _
          · rw [if_neg e, if_neg e]; rfl
        have hhd := hw.hd
        simp only [Port.rxv, FcCh.rxv] at hhd
        obtain ⟨c2, hc2⟩ : ∃ c2, c2 = FcCh.rxRelease { p.fc with dict := p.fc.dict.erase (tok, ty, dc) } ty dc := ⟨_, rfl⟩
        rw [← hc2] at hr k1 k2 k3 ⊢
        have hrx : ({ p with fc := c2, fcTimer := true } : Port).rxv.fc.rx w = _ := hr
        have hdi : ({ p with fc := c2, fcTimer := true } : Port).rxv.fc.dict = p.fc.dict.erase (tok, ty, dc) := k1
        have hnx : ({ p with fc := c2, fcTimer := true } : Port).rxv.fc.next w.1 = if ty = w.1 then 0 else p.rxv.fc.next w.1 := by
          refine (congrFun k3 w.1).trans ?_
          by_cases e : ty = w.1
          · simp only [e, if_true]
          · simp only [e, if_false]; obtain ⟨a, b⟩ := w; cases a <;> rfl
        have hde : ({ p with fc := c2, fcTimer := true } : Port).rxv.delivered = p.rxv.delivered := rfl
        have hde' : p.rxv.delivered = p.delivered := rfl
        rw [hde]
        constructor
        · exact hw.tb
        · rw [hrx]; exact hw.rb
        · rw [hrx]; exact hw.ri
        · rw [hdi, hde']; omega
        · have hal := hw.al
          have hb := hw.rb
          rw [hrx, hdi, hde']
          rw [hde', show p.rxv.fc.dict = p.fc.dict from rfl] at hal
          simp only [hb]
          rw [hal]
          by_cases h0 : (p.rxv.fc.rx w).init = 0
          · simp [h0]
          · simp only [h0, if_false]
            unfold costOf at he
            by_cases e : ty = w.1
            · simp only [e, if_true] at he ⊢
              rw [Nat.mod_add_mod]
              congr 1
              omega
            · simp only [e, if_false] at he ⊢
              rw [he]; simp
        · rw [hrx]; exact hw.rc
        · rw [hrx]; exact hw.co
        · rw [hrx]; exact hw.cp
        · rw [hrx, hdi, hnx, hde']
          intro h0
          obtain ⟨L, l1, l2, l3, l4⟩ := hw.ch h0
          refine ⟨L, l1, l2, l3, ?_⟩
          rw [hde', show p.rxv.fc.dict = p.fc.dict from rfl] at l4
          refine l4.mono (by simp only; omega) fun hne => ?_
          by_cases e : ty = w.1
          · rw [if_pos e] at hne; exact (hne rfl).elim
          · rw [if_neg e] at hne
            refine ⟨hne, ?_⟩
            unfold costOf at he; rw [if_neg e] at he; simp only; omega
        · rw [hrx]; exact hw.inf
        · rw [hrx]; exact hw.ini
      · exact h.types
      · exact h.fi21
      · exact h.fi1c
      · exact h.acc0
      · exact h.fct
      · have h1 := h.tokn
        simp only [Port.rxv, FcCh.rxv] at h1 ⊢
        rw [k1]
        exact h1.sublist (List.erase_sublist.map _)
      · have h2 := h.tokl
        simp only [Port.rxv, FcCh.rxv] at h2 ⊢
        rw [k1, k2]
        exact fun e he => h2 e (List.erase_subset he)
    · exact h
  · exact h

theorem Port.release_txv (p : Port) (token : Nat) : (p.release token).txv = p.txv ∧
    (p.release token).fc.fi1 = p.fc.fi1 ∧ (p.release token).fc.fi2 = p.fc.fi2 ∧
    (p.release token).fcInitialized = p.fcInitialized := by
  unfold Port.release
  split
  · unfold FcCh.releaseToken
    split
    · next tok ty dc hf =>
      have := FcCh.rxRelease_txv { p.fc with dict := p.fc.dict.erase (tok, ty, dc) } ty dc
      refine ⟨?_, by cases ty <;> rfl, by cases ty <;> rfl, rfl⟩
      show TxView.mk _ _ _ _ _ (FcCh.txv _) = TxView.mk _ _ _ _ _ _
      rw [this]
      congr 1
    · exact ⟨rfl, rfl, rfl, rfl⟩
  · exact ⟨rfl, rfl, rfl, rfl⟩

/-! ### DLLPs sent by the receiver -/

theorem acks_append (a b : List Dllp) : acks (a ++ b) = acks a ++ acks b := by simp [acks]
theorem upds_append (w : Credit) (a b : List Dllp) : upds w (a ++ b) = upds w a ++ upds w b := by simp [upds]

/-- Sending a DLLP that is no update and no InitFC of this type. -/
theorem FcInv.push {t : TxC} {acc del : List Tlp} {r : RxC} {dl : List Dllp} {w : Credit} {d : Dllp}
    (h : FcInv t acc r del dl w) (hd : d.type ≠ updType w.1)
    (hi : t.fi2 = false → d.type = init1Type w.1 ∨ d.type = init2Type w.1 → fld w d = (r.rx w).init) :
    FcInv t acc r del (dl ++ [d]) w := by
  have e : upds w (dl ++ [d]) = upds w dl := by rw [upds_append]; simp [upds, hd]
  refine ⟨h.tb, h.rb, h.ri, h.hd, h.al, h.rc, h.co, h.cp, ?_, ?_, fun hf x hx => ?_⟩
  · rw [e]; exact h.ch
  · rw [e]; exact h.inf
  · rcases List.mem_append.1 hx with hx | hx
    · exact h.ini hf x hx
    · simp only [List.mem_singleton] at hx; rw [hx]; exact hi hf

theorem Dir.sendAck {bnd : Prop} {t : TxView} {p : Port} {tl : List Tlp} {dl : List Dllp} (h : Dir bnd t p.rxv tl dl) :
    Dir bnd t ({ p with sendAck := false } : Port).rxv tl (dl ++ [Dllp.createAck ((p.nextRx + 4095) % 4096)]) := by
  have hT : ∀ n, (Dllp.createAck n).type = Dllp.ACK := fun _ => rfl
  refine ⟨?_, fun w => ?_, fun x hx => ?_, h.fi21, h.fi1c, h.acc0, h.fct, h.tokn, h.tokl⟩
  · obtain ⟨S, i, k, hs⟩ := h.seq
    refine ⟨S, i, k, hs.acc, hs.ntx, hs.il, hs.fl, hs.de, hs.nrx, hs.nak, hs.rt, hs.ack, ?_⟩
    have e : acks [Dllp.createAck ((p.nextRx + 4095) % 4096)] = [(i + 4095) % 4096] := by
      have := hs.nrx
      simp only [Port.rxv] at this
      simp only [acks, List.filter_cons, hT, decide_true, if_true, List.filter_nil, List.map_cons, List.map_nil]
      show [(p.nextRx + 4095) % 4096] = _
      have e3 : (i % 4096 + 4095) % 4096 = (i + 4095) % 4096 := by omega
      rw [this, e3]
    rw [acks_append, e]
    exact hs.ch.push (f := fun V => (V + 4095) % 4096)
  · refine (h.fc w).push (by rw [hT]; exact ack_ne_upd _) ?_
    intro _ hx
    rw [hT] at hx
    obtain ⟨a, b, c⟩ := ack_ne_init w.1
    rcases hx with hx | hx
    · exact (a hx.symm).elim
    · exact (b hx.symm).elim
  · rcases List.mem_append.1 hx with hx | hx
    · exact h.types x hx
    · simp only [List.mem_singleton] at hx; rw [hx]; exact .inl rfl

theorem Dir.sendInit {bnd : Prop} {t : TxView} {p : Port} {tl : List Tlp} {dl : List Dllp} (h : Dir bnd t p.rxv tl dl)
    (ty : FcType) : Dir bnd t p.rxv tl (dl ++ [p.fc.initDllp ty]) := by
  obtain ⟨hT, hF⟩ := FcCh.initDllp_type p.fc ty
  have hT' : (p.fc.initDllp ty).type = init1Type ty ∨ (p.fc.initDllp ty).type = init2Type ty := by
    rw [hT]; split
    · exact .inr rfl
    · exact .inl rfl
  obtain ⟨a1, a2, a3⟩ := ack_ne_init ty
  have hna : (p.fc.initDllp ty).type ≠ Dllp.ACK := by rcases hT' with e | e <;> rw [e] <;> assumption
  refine ⟨?_, fun w => ?_, fun x hx => ?_, h.fi21, h.fi1c, h.acc0, h.fct, h.tokn, h.tokl⟩
  · obtain ⟨S, i, k, hs⟩ := h.seq
    refine ⟨S, i, k, hs.acc, hs.ntx, hs.il, hs.fl, hs.de, hs.nrx, hs.nak, hs.rt, hs.ack, ?_⟩
    have e : acks [p.fc.initDllp ty] = [] := by simp [acks, hna]
    rw [acks_append, e, List.append_nil]
    exact hs.ch
  · refine (h.fc w).push ?_ ?_
    · rcases hT' with e | e <;> rw [e]
      · exact (init_ne_upd _ _).1
      · exact (init_ne_upd _ _).2
    · intro h2 hx
      have hw : w.1 = ty := by
        rcases hT' with e | e <;> rw [e] at hx <;> rcases hx with hx | hx
        · exact (init_inj.1.1 hx).symm
        · exact (init_inj.2.2 hx).elim
        · exact (init_inj.2.2 hx.symm).elim
        · exact (init_inj.2.1.1 hx).symm
      obtain ⟨wt, wb⟩ := w
      simp only at hw; subst hw
      have hf := hF wb
      rw [hf]
      have hal := (h.fc (wt, wb)).al
      have hri := (h.fc (wt, wb)).ri
      obtain ⟨hdel, -⟩ := h.hi_eq h2
      rw [hdel] at hal
      have hb : 2 ^ (bitsOf (wt, wb) - 1) ≤ 2 ^ bitsOf (wt, wb) := Nat.pow_le_pow_right (by decide) (Nat.sub_le _ _)
      show (p.rxv.fc.rx (wt, wb)).alloc = (p.rxv.fc.rx (wt, wb)).init
      rw [hal]
      split
      · next e => exact e.symm
      · simp only [units_nil, Nat.zero_sub, Nat.add_zero]
        exact Nat.mod_eq_of_lt (by omega)
  · rcases List.mem_append.1 hx with hx | hx
    · exact h.types x hx
    · simp only [List.mem_singleton] at hx; rw [hx]
      rcases hT' with e | e
      · exact .inr ⟨ty, .inl e⟩
      · exact .inr ⟨ty, .inr (.inl e)⟩

theorem Dir.sendUpdate {bnd : Prop} {t : TxView} {p : Port} {tl : List Tlp} {dl : List Dllp} {now steps : Nat} {fc : FcCh}
    {d : Dllp} (h : Dir bnd t p.rxv tl dl) (hu : p.fc.update now steps = some (fc, d)) :
    Dir bnd t ({ p with fc := fc } : Port).rxv tl (dl ++ [d]) := by
  obtain ⟨ty, u0, u1, u2, u3, u4, u5, u6, u7⟩ := FcCh.update_some hu
  obtain ⟨a1, a2, a3⟩ := ack_ne_init ty
  have hna : d.type ≠ Dllp.ACK := by rw [u1]; exact a3
  have hni : ∀ x, d.type ≠ init1Type x ∧ d.type ≠ init2Type x := fun x => by
    rw [u1]; exact ⟨fun e => (init_ne_upd x ty).1 e.symm, fun e => (init_ne_upd x ty).2 e.symm⟩
  refine ⟨?_, fun w => ?_, fun x hx => ?_, h.fi21, h.fi1c, h.acc0, h.fct, ?_, ?_⟩
  · obtain ⟨S, i, k, hs⟩ := h.seq
    refine ⟨S, i, k, hs.acc, hs.ntx, hs.il, hs.fl, hs.de, hs.nrx, hs.nak, hs.rt, hs.ack, ?_⟩
    have e : acks [d] = [] := by simp [acks, hna]
    rw [acks_append, e, List.append_nil]
    exact hs.ch
  · have hrx : ({ p with fc := fc } : Port).rxv.fc.rx = p.rxv.fc.rx := by
      funext x; show (counters fc x).rx = (counters p.fc x).rx; rw [u4]
    have hdi : ({ p with fc := fc } : Port).rxv.fc.dict = p.rxv.fc.dict := u5
    have hnx : ({ p with fc := fc } : Port).rxv.fc.next w.1 = if w.1 = ty then now + steps else p.rxv.fc.next w.1 := u7 w.1
    have hde : ({ p with fc := fc } : Port).rxv.delivered = p.rxv.delivered := rfl
    have hw := h.fc w
    rw [hde]
    by_cases e : w.1 = ty
    · have hup : upds w (dl ++ [d]) = upds w dl ++ [(p.rxv.fc.rx w).alloc] := by
        have : fld w d = (p.rxv.fc.rx w).alloc := by
          obtain ⟨a, b⟩ := w; simp only at e; subst e; exact u2 b
        rw [upds_append, ← this]; simp [upds, u1, e]
      refine ⟨hw.tb, ?_, ?_, ?_, ?_, ?_, ?_, ?_, ?_, ?_, ?_⟩
      · rw [hrx]; exact hw.rb
      · rw [hrx]; exact hw.ri
      · rw [hdi]; exact hw.hd
      · rw [hrx, hdi]; exact hw.al
      · rw [hrx]; exact hw.rc
      · rw [hrx]; exact hw.co
      · rw [hrx]; exact hw.cp
      · rw [hrx, hdi, hup]
        intro h0
        obtain ⟨L, l1, l2, l3, l4⟩ := hw.ch h0
        refine ⟨L, l1, l2, l3, ?_⟩
        have hal := hw.al
        rw [if_neg h0] at hal
        rw [hal]
        exact l4.push (f := (· % 2 ^ bitsOf w))
      · rw [hrx, hup]
        intro h0 v hv
        rcases List.mem_append.1 hv with hv | hv
        · exact hw.inf h0 v hv
        · simp only [List.mem_singleton] at hv
          have hal := hw.al
          rw [if_pos h0] at hal
          rw [hv, hal]
      · intro hf x hx
        rw [hrx]
        rcases List.mem_append.1 hx with hx | hx
        · exact hw.ini hf x hx
        · simp only [List.mem_singleton] at hx; rw [hx]
          intro q; rcases q with q | q
          · exact ((hni _).1 q).elim
          · exact ((hni _).2 q).elim
    · have hw := hw.push (d := d) (by rw [u1]; exact fun q => e (updType_inj.1 q).symm) (fun _ q => by
        rcases q with q | q
        · exact ((hni _).1 q).elim
        · exact ((hni _).2 q).elim)
      refine ⟨hw.tb, ?_, ?_, ?_, ?_, ?_, ?_, ?_, ?_, ?_, ?_⟩
      · rw [hrx]; exact hw.rb
      · rw [hrx]; exact hw.ri
      · rw [hdi]; exact hw.hd
      · rw [hrx, hdi]; exact hw.al
      · rw [hrx]; exact hw.rc
      · rw [hrx]; exact hw.co
      · rw [hrx]; exact hw.cp
      · rw [hrx, hdi, hnx, if_neg e]; exact hw.ch
      · rw [hrx]; exact hw.inf
      · rw [hrx]; exact hw.ini
  · rcases List.mem_append.1 hx with hx | hx
    · exact h.types x hx
    · simp only [List.mem_singleton] at hx; rw [hx]; exact .inr ⟨ty, .inr (.inr u1)⟩
  · have := h.tokn; simp only [Port.rxv, FcCh.rxv] at this ⊢; rw [u5]; exact this
  · have := h.tokl; simp only [Port.rxv, FcCh.rxv] at this ⊢; rw [u5, u6]; exact this

theorem Dir.ackTimeout {bnd : Prop} {t : TxView} {p : Port} {tl : List Tlp} {dl : List Dllp} (h : Dir bnd t p.rxv tl dl) :
    Dir bnd t p.ackTimeout.rxv tl dl := by
  obtain ⟨S, i, k, hs⟩ := h.seq
  have hn := hs.nak
  simp only [Port.rxv] at hn
  unfold Port.ackTimeout
  split
  · next ht =>
    refine ⟨⟨S, i, k, hs.acc, hs.ntx, hs.il, hs.fl, hs.de, hs.nrx, hs.nak, hs.rt, hs.ack, ?_⟩, h.fc, h.types, h.fi21, h.fi1c,
      h.acc0, h.fct, h.tokn, h.tokl⟩
    refine hs.ch.mono (Nat.le_refl _) fun x => ?_
    have := x.2.1
    simp only [Port.rxv, hn] at this
    cases this
  · exact h

end Pcie
