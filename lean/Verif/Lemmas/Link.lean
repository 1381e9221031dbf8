/-
The invariant of a link and its preservation by every event.
-/
import Verif.Lemmas.PortRx
namespace Pcie
open Spec

theorem Port.transmit_cases (p : Port) (now steps : Nat) :
    (p.sendAck = true ∧ p.transmit now steps = ({ p with sendAck := false },
      some (.dllp (if p.nak then Dllp.createNak ((p.nextRx + 4095) % 4096) else Dllp.createAck ((p.nextRx + 4095) % 4096))))) ∨
    (∃ fc d, p.fc.fi2 = true ∧ p.fc.update now steps = some (fc, d) ∧ p.transmit now steps = ({ p with fc := fc }, some (.dllp d))) ∨
    (p.fcInitialized = false ∧ p.transmit now steps =
      ({ p with fcInitType := Port.nextType p.fcInitType, fcInitialized := p.fc.fi2 }, some (.dllp (p.fc.initDllp p.fcInitType)))) ∨
    (∃ sf x rest, p.txq = x :: rest ∧ p.transmit now steps =
      ({ p with sendFc := sf, txq := rest, nextTx := (p.nextTx + 1) % 4096, retry := p.retry ++ [{ x with seq := p.nextTx }] },
        some (.tlp { x with seq := p.nextTx }))) ∨
    (∃ sf, p.transmit now steps = ({ p with sendFc := sf }, none)) := by
  unfold Port.transmit
  split
  · next h => exact .inl ⟨h, rfl⟩
  · right
    split
    · split
      · next fc d he =>
        split at he
        · next hc => exact .inl ⟨fc, d, hc.2, he, rfl⟩
        · cases he
      · right
        split
        · next h => exact .inl ⟨by simpa using h, rfl⟩
        · right
          unfold Port.transmitTlp
          simp only
          cases hq : p.txq with
          | nil => exact .inr ⟨false, rfl⟩
          | cons x rest => exact .inl ⟨false, x, rest, rfl, rfl⟩
    · right; right
      unfold Port.transmitTlp
      cases hq : p.txq with
      | nil => exact .inr ⟨p.sendFc, by obtain ⟨⟩ := p; simp only at hq ⊢; subst hq; rfl⟩
      | cons x rest => exact .inl ⟨p.sendFc, x, rest, rfl, rfl⟩

/-- An InitFC2 or UpdateFC DLLP: it tells the partner that the sender has taken over its credits. -/
def isFi2 (d : Dllp) : Prop := ∃ ty, d.type = init2Type ty ∨ d.type = updType ty

/-- Progress of the initialisation of `a`. -/
structure Flags (a b : Port) (ab ba : List Pkt) : Prop where
  f1 : (∃ d ∈ dllps ba, isFi2 d) → b.fc.fi1 = true
  f2 : a.fc.fi2 = true → b.fc.fi1 = true
  f3 : a.fcInitialized = true → a.fc.fi2 = true
  f4 : a.fcInitialized = true → b.fc.fi2 = true ∨ ∃ d ∈ dllps ab, isFi2 d

structure LinkInv (bnd : Prop) (l : Link) : Prop where
  da : Dir bnd l.a.txv l.b.rxv (tlps l.ab) (dllps l.ba)
  db : Dir bnd l.b.txv l.a.rxv (tlps l.ba) (dllps l.ab)
  fa : Flags l.a l.b l.ab l.ba
  fb : Flags l.b l.a l.ba l.ab

theorem LinkInv.swap {bnd : Prop} {l : Link} (h : LinkInv bnd l) : LinkInv bnd l.swap := ⟨h.db, h.da, h.fb, h.fa⟩

theorem tlps_append (a b : List Pkt) : tlps (a ++ b) = tlps a ++ tlps b := by simp [tlps]
theorem dllps_append (a b : List Pkt) : dllps (a ++ b) = dllps a ++ dllps b := by simp [dllps]
theorem tlps_dllp (d : Dllp) (l : List Pkt) : tlps (.dllp d :: l) = tlps l := by simp [tlps]
theorem tlps_tlp (t : Tlp) (l : List Pkt) : tlps (.tlp t :: l) = t :: tlps l := by simp [tlps]
theorem dllps_dllp (d : Dllp) (l : List Pkt) : dllps (.dllp d :: l) = d :: dllps l := by simp [dllps]
theorem tlps_push_dllp (d : Dllp) (l : List Pkt) : tlps (l ++ [.dllp d]) = tlps l := by simp [tlps]
theorem tlps_push_tlp (t : Tlp) (l : List Pkt) : tlps (l ++ [.tlp t]) = tlps l ++ [t] := by simp [tlps]
theorem dllps_push_dllp (d : Dllp) (l : List Pkt) : dllps (l ++ [.dllp d]) = dllps l ++ [d] := by simp [dllps]
theorem dllps_push_tlp (t : Tlp) (l : List Pkt) : dllps (l ++ [.tlp t]) = dllps l := by simp [dllps]
theorem dllps_tlp (t : Tlp) (l : List Pkt) : dllps (.tlp t :: l) = dllps l := by simp [dllps]

/-- The flags that matter for initialisation are kept. -/
theorem Flags.congr {a b a' b' : Port} {ab ba : List Pkt} (h : Flags a b ab ba) (h1 : a'.fc.fi2 = a.fc.fi2)
    (h2 : b'.fc.fi1 = b.fc.fi1) (h3 : b'.fc.fi2 = b.fc.fi2) (h4 : a'.fcInitialized = a.fcInitialized) : Flags a' b' ab ba := by
  refine ⟨?_, ?_, ?_, ?_⟩
  · rw [h2]; exact h.f1
  · rw [h1, h2]; exact h.f2
  · rw [h1, h4]; exact h.f3
  · rw [h3, h4]; exact h.f4

theorem Port.send_frame {p p' : Port} {x : Tlp} (h : p.send x = some p') :
    p'.rxv = p.rxv ∧ p'.fc.fi1 = p.fc.fi1 ∧ p'.fc.fi2 = p.fc.fi2 ∧ p'.fcInitialized = p.fcInitialized := by
  unfold Port.send at h
  split at h
  · cases h
  · next ty hty =>
    split at h
    · injection h with h; subst h
      obtain ⟨f1, f2, f3⟩ := FcCh.txConsume_flags p.fc ty x.dataCredits
      refine ⟨?_, f2, f3, rfl⟩
      show RxView.mk _ _ _ _ _ (FcCh.rxv _) = RxView.mk _ _ _ _ _ _
      rw [FcCh.txConsume_rxv]
    · cases h

theorem Flags.ab_append {a b : Port} {ab ba x : List Pkt} (h : Flags a b ab ba) : Flags a b (ab ++ x) ba := by
  refine ⟨h.f1, h.f2, h.f3, fun hi => ?_⟩
  rcases h.f4 hi with q | ⟨d, hd, hq⟩
  · exact .inl q
  · exact .inr ⟨d, by rw [dllps_append]; exact List.mem_append_left _ hd, hq⟩

theorem Flags.ba_append {a b : Port} {ab ba : List Pkt} {pkt : Pkt} (h : Flags a b ab ba)
    (hx : ∀ d, pkt = .dllp d → isFi2 d → b.fc.fi1 = true) : Flags a b ab (ba ++ [pkt]) := by
  refine ⟨fun ⟨d, hd, hq⟩ => ?_, h.f2, h.f3, h.f4⟩
  rw [dllps_append] at hd
  rcases List.mem_append.1 hd with hd | hd
  · exact h.f1 ⟨d, hd, hq⟩
  · cases pkt with
    | dllp d' =>
      rw [dllps_dllp] at hd
      simp only [dllps, List.filterMap_nil, List.mem_singleton] at hd
      subst hd; exact hx d rfl hq
    | tlp t => rw [dllps_tlp] at hd; cases hd

theorem not_fi2_ack (n : Nat) : ¬ isFi2 (Dllp.createAck n) := by
  rintro ⟨ty, h⟩
  obtain ⟨a, b, c⟩ := ack_ne_init ty
  rcases h with h | h
  · exact b h.symm
  · exact c h.symm

theorem LinkInv.transmit {bnd : Prop} {l : Link} (h : LinkInv bnd l) (now steps : Nat) :
    LinkInv bnd { l with a := (l.a.transmit now steps).1, ab := l.ab ++ (l.a.transmit now steps).2.toList } := by
  rcases Port.transmit_cases l.a now steps with ⟨hs, he⟩ | ⟨fc, d, hf, hu, he⟩ | ⟨hn, he⟩ | ⟨sf, x, rest, hq, he⟩ | ⟨sf, he⟩
  · -- ACK
    have hnak : l.a.nak = false := by obtain ⟨_, _, _, hs⟩ := h.db.seq; exact hs.nak
    rw [if_neg (by simp [hnak])] at he
    rw [he]
    simp only [Option.toList_some]
    refine ⟨?_, ?_, ?_, ?_⟩
    · simp only; rw [tlps_push_dllp]; exact h.da
    · simp only; rw [dllps_push_dllp]; exact h.db.sendAck
    · exact (h.fa.ab_append).congr rfl rfl rfl rfl
    · exact (h.fb.ba_append (fun d hd q => by injection hd with hd; subst hd; exact (not_fi2_ack _ q).elim)).congr rfl rfl rfl rfl
  · -- UpdateFC
    obtain ⟨ty, u0, u1, u2, u3, u4, u5, u6, u7⟩ := FcCh.update_some hu
    have hf1 : fc.fi1 = l.a.fc.fi1 := congrArg TxC.fi1 u3
    have hf2 : fc.fi2 = l.a.fc.fi2 := congrArg TxC.fi2 u3
    rw [he]
    simp only [Option.toList_some]
    refine ⟨?_, ?_, ?_, ?_⟩
    · simp only; rw [tlps_push_dllp]
      have : ({ l.a with fc := fc } : Port).txv = l.a.txv := by
        show TxView.mk _ _ _ _ _ _ = TxView.mk _ _ _ _ _ _
        rw [u3]
      rw [this]; exact h.da
    · simp only; rw [dllps_push_dllp]; exact h.db.sendUpdate hu
    · exact (h.fa.ab_append).congr hf2 rfl rfl rfl
    · exact (h.fb.ba_append (fun _ _ _ => h.da.fi21 hf)).congr rfl hf1 hf2 rfl
  · -- InitFC
    rw [he]
    simp only [Option.toList_some]
    refine ⟨?_, ?_, ?_, ?_⟩
    · simp only; rw [tlps_push_dllp]; exact h.da
    · simp only; rw [dllps_push_dllp]; exact h.db.sendInit l.a.fcInitType
    · refine ⟨h.fa.f1, h.fa.f2, fun q => q, fun q => ?_⟩
      refine .inr ⟨_, by simp only; rw [dllps_push_dllp]; exact List.mem_append_right _ List.mem_cons_self, l.a.fcInitType, .inl ?_⟩
      rw [(FcCh.initDllp_type _ _).1]; exact if_pos (h.da.fi21 q)
    · refine (h.fb.ba_append (fun d hd hq => ?_)).congr rfl rfl rfl rfl
      injection hd with hd; subst hd
      obtain ⟨ty, hq⟩ := hq
      rw [(FcCh.initDllp_type _ _).1] at hq
      cases e : l.a.fc.fi1 with
      | true => rfl
      | false =>
        rw [e] at hq
        simp only [Bool.false_eq_true, if_false] at hq
        rcases hq with hq | hq
        · exact (init_inj.2.2 hq).elim
        · exact ((init_ne_upd _ _).1 hq).elim
  · -- a TLP
    rw [he]
    simp only [Option.toList_some]
    refine ⟨?_, ?_, ?_, ?_⟩
    · simp only; rw [tlps_push_tlp]; exact h.da.transmitTlp x rest hq
    · simp only; rw [dllps_push_tlp]; exact h.db
    · exact (h.fa.ab_append).congr rfl rfl rfl rfl
    · exact (h.fb.ba_append (fun d hd => by cases hd)).congr rfl rfl rfl rfl
  · rw [he]
    simp only [Option.toList_none, List.append_nil]
    exact ⟨h.da, h.db, h.fa.congr rfl rfl rfl rfl, h.fb.congr rfl rfl rfl rfl⟩

theorem Flags.ba_tail {a b : Port} {ab ba : List Pkt} {pkt : Pkt} (h : Flags a b ab (pkt :: ba)) : Flags a b ab ba := by
  refine ⟨fun ⟨d, hd, hq⟩ => h.f1 ⟨d, ?_, hq⟩, h.f2, h.f3, h.f4⟩
  cases pkt with
  | dllp _ => rw [dllps_dllp]; exact List.mem_cons_of_mem _ hd
  | tlp _ => rw [dllps_tlp]; exact hd

theorem Flags.ab_tail {a b : Port} {ab ba : List Pkt} {pkt : Pkt} (h : Flags a b (pkt :: ab) ba)
    (hx : ∀ d, pkt = .dllp d → isFi2 d → b.fc.fi2 = true) : Flags a b ab ba := by
  refine ⟨h.f1, h.f2, h.f3, fun hi => ?_⟩
  rcases h.f4 hi with q | ⟨d, hd, hq⟩
  · exact .inl q
  · cases pkt with
    | dllp d' =>
      rw [dllps_dllp] at hd
      rcases List.mem_cons.1 hd with hd | hd
      · subst hd; exact .inl (hx _ rfl hq)
      · exact .inr ⟨d, hd, hq⟩
    | tlp _ => rw [dllps_tlp] at hd; exact .inr ⟨d, hd, hq⟩

/-- Flow-control DLLPs never take flags back. -/
theorem FcCh.handleFc_mono {c c' : FcCh} {d : Dllp} (h : c.handleFc d = .ok c') (hc : c.fi2 = true → c.fi1 = true) :
    (c.fi1 = true → c'.fi1 = true) ∧ (c.fi2 = true → c'.fi2 = true) ∧
    (c.fi1 = true → isFi2 d → c'.fi2 = true) ∧ (c'.fi2 = true → c.fi2 = true ∨ isFi2 d) := by
  unfold FcCh.handleFc at h
  by_cases h1 : c.fi1 = true
  · rw [if_neg (by simp [h1])] at h
    by_cases h2 : c.fi2 = true
    · rw [if_neg (by simp [h2])] at h
      have key : c'.fi1 = c.fi1 ∧ c'.fi2 = c.fi2 := by
        split at h
        · split at h
          · injection h with h; subst h; exact ⟨rfl, rfl⟩
          · cases h
        · split at h
          · split at h
            · injection h with h; subst h; exact ⟨rfl, rfl⟩
            · cases h
          · split at h
            · split at h
              · injection h with h; subst h; exact ⟨rfl, rfl⟩
              · cases h
            · injection h with h; subst h; exact ⟨rfl, rfl⟩
      rw [key.1, key.2]
      exact ⟨id, id, fun _ _ => h2, fun _ => .inl h2⟩
    · rw [if_pos (by simp [h2])] at h
      split at h
      · next hm =>
        injection h with h; subst h
        refine ⟨fun x => x, fun _ => rfl, fun _ _ => rfl, fun _ => .inr ?_⟩
        simp only [List.mem_cons, List.not_mem_nil, or_false] at hm
        rcases hm with q | q | q | q | q | q
        · exact ⟨.P, .inl q⟩
        · exact ⟨.NP, .inl q⟩
        · exact ⟨.CPL, .inl q⟩
        · exact ⟨.P, .inr q⟩
        · exact ⟨.NP, .inr q⟩
        · exact ⟨.CPL, .inr q⟩
      · next hm =>
        injection h with h; subst h
        refine ⟨fun x => x, fun x => x, fun _ hq => (hm ?_).elim, fun x => .inl x⟩
        obtain ⟨ty, hq | hq⟩ := hq <;> rw [hq] <;> cases ty <;> decide
  · have h2 : c.fi2 = false := by cases e : c.fi2 <;> simp_all
    rw [if_pos (by simp [h1])] at h
    injection h with h
    have key : c'.fi2 = c.fi2 := by
      subst h
      unfold FcCh.init1
      split
      · simp only; split_ifs <;> rfl
      · rfl
    rw [key]
    exact ⟨fun x => (h1 x).elim, id, fun x => (h1 x).elim, fun x => .inl x⟩

theorem LinkInv.recv {bnd : Prop} {l : Link} (h : LinkInv bnd l) (hb : bnd → l.a.retry.length ≤ 2048) (pkt : Pkt)
    (rest : List Pkt) (hba : l.ba = pkt :: rest) :
    ∃ p, l.a.recv pkt = .ok p ∧ LinkInv bnd { l with a := p, ba := rest } := by
  obtain ⟨hda, hdb, hfa, hfb⟩ := h
  rw [hba] at hda hdb hfa hfb
  cases pkt with
  | tlp t =>
    rw [dllps_tlp] at hda
    rw [tlps_tlp] at hdb
    obtain ⟨p', e, hd, ht, f1, f2, f3⟩ := hdb.recvTlp
    refine ⟨p', e, ?_, hd, ?_, ?_⟩
    · simp only; rw [ht]; exact hda
    · exact hfa.ba_tail.congr f2 rfl rfl f3
    · exact (hfb.ab_tail (fun d hd => by cases hd)).congr rfl f1 f2 rfl
  | dllp d =>
    rw [dllps_dllp] at hda
    rw [tlps_dllp] at hdb
    rcases hda.types d List.mem_cons_self with hack | ⟨ty, hty⟩
    · obtain ⟨p', e, hd, hp, -⟩ := hda.recvAck hb hack
      have hr : p'.rxv = l.a.rxv := by rw [hp]; rfl
      have f1 : p'.fc = l.a.fc := by rw [hp]
      have f3 : p'.fcInitialized = l.a.fcInitialized := by rw [hp]
      refine ⟨p', e, hd, ?_, ?_, ?_⟩
      · simp only; rw [hr]; exact hdb
      · exact hfa.ba_tail.congr (by rw [f1]) rfl rfl f3
      · refine (hfb.ab_tail (fun d' hd' hq => ?_)).congr rfl (by rw [f1]) (by rw [f1]) rfl
        injection hd' with hd'; subst hd'
        obtain ⟨ty, hq⟩ := hq
        rw [hack] at hq
        obtain ⟨a1, a2, a3⟩ := ack_ne_init ty
        rcases hq with hq | hq
        · exact (a2 hq.symm).elim
        · exact (a3 hq.symm).elim
    · obtain ⟨c', e, hd⟩ := hda.recvFc ty hty
      obtain ⟨m1, m2, m3, m4⟩ := FcCh.handleFc_mono e hda.fi21
      have hnop : d.type ≠ Dllp.NOP := by rcases hty with q | q | q <;> rw [q] <;> cases ty <;> decide
      have hnak : d.type ≠ Dllp.NAK := by rcases hty with q | q | q <;> rw [q] <;> cases ty <;> decide
      have hack : d.type ≠ Dllp.ACK := by rcases hty with q | q | q <;> rw [q] <;> cases ty <;> decide
      have hmem : d.type ∈ Dllp.fcTypes := by rcases hty with q | q | q <;> rw [q] <;> cases ty <;> decide
      refine ⟨{ l.a with fc := c' }, ?_, hd, ?_, ?_, ?_⟩
      · show l.a.handleDllp d = _
        unfold Port.handleDllp
        rw [if_neg hnop, if_neg (by rintro (q | q); exacts [hack q, hnak q]), if_pos hmem, e]
      · have : ({ l.a with fc := c' } : Port).rxv = l.a.rxv := by
          show RxView.mk _ _ _ _ _ _ = RxView.mk _ _ _ _ _ _
          rw [FcCh.handleFc_rxv e]
        simp only; rw [this]; exact hdb
      · refine ⟨hfa.ba_tail.f1, fun q => ?_, fun q => m2 (hfa.f3 q), hfa.f4⟩
        rcases m4 q with q | q
        · exact hfa.f2 q
        · exact hfa.f1 ⟨d, by rw [dllps_dllp]; exact List.mem_cons_self, q⟩
      · refine ⟨fun q => m1 (hfb.f1 q), fun q => m1 (hfb.f2 q), hfb.f3, fun q => ?_⟩
        rcases hfb.f4 q with q' | ⟨d', hd', hq'⟩
        · exact .inl (m2 q')
        · rw [dllps_dllp] at hd'
          rcases List.mem_cons.1 hd' with hd' | hd'
          · subst hd'; exact .inl (m3 (hfb.f2 (hfb.f3 q)) hq')
          · exact .inr ⟨d', hd', hq'⟩

theorem LinkInv.stepA {bnd : Prop} {l : Link} (h : LinkInv bnd l) (hb : bnd → l.a.retry.length ≤ 2048) (steps : Nat)
    (e : PortAct) : ∃ l', l.stepA steps e = .ok l' ∧ LinkInv bnd l' := by
  cases e with
  | send t =>
    unfold Link.stepA
    simp only
    split
    · next p hp =>
      obtain ⟨k1, k2, k3, k4⟩ := Port.send_frame hp
      refine ⟨_, rfl, h.da.send hp, ?_, h.fa.congr k3 rfl rfl k4, h.fb.congr rfl k2 k3 rfl⟩
      simp only; rw [k1]; exact h.db
    · exact ⟨_, rfl, h⟩
  | transmit now => exact ⟨_, rfl, h.transmit now steps⟩
  | recv =>
    unfold Link.stepA
    simp only
    split
    · exact ⟨_, rfl, h⟩
    · next pkt rest hba =>
      obtain ⟨p, e, hp⟩ := h.recv hb pkt rest hba
      rw [e]
      exact ⟨_, rfl, hp⟩
  | release token =>
    obtain ⟨k1, k2, k3, k4⟩ := Port.release_txv l.a token
    refine ⟨_, rfl, ?_, h.db.release token, h.fa.congr k3 rfl rfl k4, h.fb.congr rfl k2 k3 rfl⟩
    simp only; rw [k1]; exact h.da
  | ackTimeout =>
    have hf : l.a.ackTimeout.fc = l.a.fc ∧ l.a.ackTimeout.fcInitialized = l.a.fcInitialized ∧ l.a.ackTimeout.txv = l.a.txv := by
      unfold Port.ackTimeout; split <;> exact ⟨rfl, rfl, rfl⟩
    refine ⟨_, rfl, ?_, h.db.ackTimeout, h.fa.congr ?_ rfl rfl hf.2.1, h.fb.congr rfl ?_ ?_ rfl⟩
    · simp only; rw [hf.2.2]; exact h.da
    all_goals simp only; rw [hf.1]
  | fcTimeout => exact ⟨_, rfl, h.da, h.db, h.fa.congr rfl rfl rfl rfl, h.fb.congr rfl rfl rfl rfl⟩
  | take => exact ⟨_, rfl, h.da, h.db, h.fa.congr rfl rfl rfl rfl, h.fb.congr rfl rfl rfl rfl⟩

theorem LinkInv.step {bnd : Prop} {l : Link} (h : LinkInv bnd l) (hb : bnd → l.a.retry.length ≤ 2048 ∧ l.b.retry.length ≤ 2048)
    (steps : Nat) (e : Bool × PortAct) : ∃ l', l.step steps e = .ok l' ∧ LinkInv bnd l' := by
  unfold Link.step
  split
  · exact h.stepA (fun b => (hb b).1) steps e.2
  · obtain ⟨l', e', h'⟩ := h.swap.stepA (fun b => (hb b).2) steps e.2
    rw [e']
    exact ⟨l'.swap, rfl, h'.swap⟩

theorem FcState.new_ok {bits init : Nat} {s : FcState} (h : FcState.new bits init = .ok s) :
    init < 2 ^ (bits - 1) ∧ s = { bits := bits, rxInit := init, rxAlloc := init } := by
  unfold FcState.new at h
  split at h
  · cases h
  · injection h with h; exact ⟨by omega, h.symm⟩

theorem FcCh.new_ok {a b c d e f : Nat} {x : FcCh} (h : FcCh.new a b c d e f = .ok x) :
    ∃ iv : Credit → Nat, (∀ w, iv w < 2 ^ (bitsOf w - 1) ∧ counters x w = { bits := bitsOf w, rxInit := iv w, rxAlloc := iv w }) ∧
      x.cap = (fun _ => false) ∧ x.fi1 = false ∧ x.fi2 = false ∧ x.dict = [] ∧
      (iv (.P, false) = a ∧ iv (.P, true) = b ∧ iv (.NP, false) = c ∧ iv (.NP, true) = d ∧ iv (.CPL, false) = e ∧ iv (.CPL, true) = f) := by
  unfold FcCh.new at h
  cases h1 : FcState.new 12 a with
  | error => simp [h1, bind, Except.bind] at h
  | ok x1 =>
  cases h2 : FcState.new 16 b with
  | error => simp [h1, h2, bind, Except.bind] at h
  | ok x2 =>
  cases h3 : FcState.new 12 c with
  | error => simp [h1, h2, h3, bind, Except.bind] at h
  | ok x3 =>
  cases h4 : FcState.new 16 d with
  | error => simp [h1, h2, h3, h4, bind, Except.bind] at h
  | ok x4 =>
  cases h5 : FcState.new 12 e with
  | error => simp [h1, h2, h3, h4, h5, bind, Except.bind] at h
  | ok x5 =>
  cases h6 : FcState.new 16 f with
  | error => simp [h1, h2, h3, h4, h5, h6, bind, Except.bind] at h
  | ok x6 =>
  simp only [h1, h2, h3, h4, h5, h6, bind, Except.bind] at h
  injection h with h
  subst h
  have g1 := FcState.new_ok h1
  have g2 := FcState.new_ok h2
  have g3 := FcState.new_ok h3
  have g4 := FcState.new_ok h4
  have g5 := FcState.new_ok h5
  have g6 := FcState.new_ok h6
  refine ⟨fun w => match w with
    | (.P, false) => a | (.P, true) => b | (.NP, false) => c | (.NP, true) => d | (.CPL, false) => e | (.CPL, true) => f,
    ?_, ?_, rfl, rfl, rfl, rfl, rfl, rfl, rfl, rfl, rfl⟩
  · rintro ⟨t, v⟩; cases t <;> cases v
    exacts [g1, g2, g3, g4, g5, g6]
  · funext x; cases x <;> rfl

theorem dir_init {bnd : Prop} {p q : Port} {a b c d e f : Nat} (hp : ∃ a b c d e f, freshPort a b c d e f p)
    (hq : freshPort a b c d e f q) : Dir bnd p.txv q.rxv [] [] := by
  obtain ⟨a', b', c', d', e', f', fc, h1, rfl⟩ := hp
  obtain ⟨gc, h2, rfl⟩ := hq
  obtain ⟨iv, k1, k2, k3, k4, k5, -⟩ := FcCh.new_ok h1
  obtain ⟨iw, j1, j2, j3, j4, j5, -⟩ := FcCh.new_ok h2
  constructor
  · exact ⟨[], 0, 0, rfl, rfl, Nat.le_refl _, rfl, rfl, rfl, rfl, rfl, rfl, Nat.le_refl _, fun _ => rfl⟩
  · intro w
    obtain ⟨kb, kc⟩ := k1 w
    obtain ⟨jb, jc⟩ := j1 w
    simp only [Port.txv, Port.rxv, FcCh.txv, FcCh.rxv]
    have hh : held w gc.dict = 0 := by rw [j5]; rfl
    have hb : 2 ^ (bitsOf w - 1) ≤ 2 ^ bitsOf w := Nat.pow_le_pow_right (by decide) (Nat.sub_le _ _)
    constructor
    · simp only [kc]; rfl
    · simp only [jc]; rfl
    · simp only [jc]; exact jb
    · simp only [hh]; exact Nat.zero_le _
    · simp only [hh, jc, units_nil, FcState.rx]
      split
      · next h0 => exact h0
      · rw [Nat.mod_eq_of_lt (by omega)]; omega
    · simp only [jc, units_nil, FcState.rx]; simp
    · simp only [jc, kc, units_nil, FcState.rx, FcState.tx]; simp
    · intro hc; rw [k2] at hc; cases hc
    · intro _
      refine ⟨iw w, fun hc => by (rw [k2] at hc; cases hc), Nat.zero_le _, ?_, ?_, fun hn => ?_⟩
      · simp only [jc]; exact Nat.le_refl _
      · simp only [jc, hh, units_nil, FcState.rx]; omega
      · simp only [jc, hh, units_nil, FcState.rx]; omega
    · intro _ v hv; cases hv
    · intro _ x hx; cases hx
  · intro x hx; cases hx
  · intro hf; simp only [Port.txv, FcCh.txv] at hf; rw [k4] at hf; cases hf
  · intro hf; simp only [Port.txv, FcCh.txv] at hf; rw [k3] at hf; cases hf
  · intro _; rfl
  · intro x hx; cases hx
  · simp only [Port.rxv, FcCh.rxv]; rw [j5]; exact List.nodup_nil
  · simp only [Port.rxv, FcCh.rxv]; rw [j5]; intro e he; cases he

theorem LinkInv.init {bnd : Prop} {l : Link} (h : Fresh l) : LinkInv bnd l := by
  obtain ⟨h1, h2, ha, hb⟩ := h
  have fl : ∀ p q : Port, (∃ a b c d e f, freshPort a b c d e f p) → Flags p q [] [] := by
    rintro p q ⟨a, b, c, d, e, f, fc, e1, rfl⟩
    obtain ⟨iv, k1, k2, k3, k4, k5, -⟩ := FcCh.new_ok e1
    refine ⟨fun ⟨d, hd, _⟩ => by (cases hd), fun hf => ?_, fun hf => by (cases hf), fun hf => by (cases hf)⟩
    simp only at hf; rw [k4] at hf; cases hf
  refine ⟨?_, ?_, ?_, ?_⟩
  · rw [h1, h2]
    obtain ⟨_, _, _, _, _, _, hb'⟩ := hb
    exact dir_init ha hb'
  · rw [h1, h2]
    obtain ⟨_, _, _, _, _, _, ha'⟩ := ha
    exact dir_init hb ha'
  · rw [h1, h2]; exact fl _ _ ha
  · rw [h1, h2]; exact fl _ _ hb

end Pcie
