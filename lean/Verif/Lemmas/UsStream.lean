import Verif.Lemmas.UsMarks
/-
The UltraScale source and sink together.
-/
namespace Pcie
namespace Us
open Spec
open S10 (item signal)

/-- The sink's frame after `n` dwords. -/
def part (b : Bus) (f : UsFrame) (n : Nat) (d : Bool) : UsFrame :=
  { data := f.data.take n
    byteEn := if usByteEn b.kind then f.byteEn.take n else []
    parity := f.parity.take n
    firstBe := (usSeen b f).firstBe
    lastBe := (usSeen b f).lastBe
    discontinue := d
    seqNum := (usSeen b f).seqNum }

/-- The sink's frame. -/
def Rel (b : Bus) (bad : Prop) (fr : Option UsFrame) : Option (UsFrame × Nat) → Prop
  | none => fr = none ∨ (b.kind ≠ .rc ∧ fr = some {})
  | some (f, off) => ∃ d, fr = some (part b f off d) ∧ (f.discontinue = true → d = true) ∧ (d = true → f.discontinue = true ∨ bad)

/-- A frame that was received. -/
def Got (b : Bus) (bad : Prop) (r f : UsFrame) : Prop :=
  ∃ d, r = { usSeen b f with discontinue := d } ∧ (f.discontinue = true → d = true) ∧ (d = true → f.discontinue = true ∨ bad)

theorem part_full {b : Bus} {f : UsFrame} (hf : UsOk b.kind f) {n : Nat} (hn : f.data.length ≤ n) (d : Bool) : part b f n d = { usSeen b f with discontinue := d } := by
  have h1 : f.data.take n = f.data := List.take_of_length_le hn
  have h2 : f.parity.take n = f.parity := List.take_of_length_le (by rw [hf.parityLength]; exact hn)
  unfold part
  rw [h1, h2]
  by_cases hk : usByteEn b.kind = true
  · have h3 : f.byteEn.take n = f.byteEn := List.take_of_length_le (by rw [(hf.byteEn hk).1]; exact hn)
    simp [usSeen, hk, h3]
  · simp [usSeen, hk]

/-! ### Lanes -/

theorem take_get {l : List Nat} {n : Nat} (h : n < l.length) : l.take n ++ [l.getD n 0] = l.take (n + 1) := by
  rw [List.take_succ, List.getD_eq_getElem?_getD, List.getElem?_eq_getElem h]; simp

theorem getLane_eq {b : Bus} (h : UsBus b) {t : Txn} {ps : List (Option (UsFrame × Nat))} (hr : Reads b t ps) {f : UsFrame} {off j k : Nat}
    (hf : UsOk b.kind f) (hj : ps[j]? = some (some (f, off))) (hjs : j < b.segs) (hk : k < b.lanes) (hlt : off + k < f.data.length) :
    (t.tdata >>> ((k + j * b.lanes) * 32)) &&& 0xffffffff = f.data.getD (off + k) 0 ∧
    (∀ o, b.ben = some o → (t.tuser >>> ((k + j * b.lanes) * 4 + o)) &&& 0xf = f.byteEn.getD (off + k) 0) ∧
    (t.tuser >>> ((k + j * b.lanes) * 4 + b.par)) &&& 0xf = f.parity.getD (off + k) 0 ∧ t.tkeep.testBit (k + j * b.lanes) = true := by
  have hlane := lane_lt h hjs hk
  have v := fun c hc => val_lane (b := b) (c := c) hc hk ps 0 0 0 j hj
  simp only [Nat.zero_add] at v
  have e1 := hr .data (k + j * b.lanes) hlane
  have e2 := hr .par (k + j * b.lanes) hlane
  have e3 := hr .keep (k + j * b.lanes) hlane
  rw [v _ rfl] at e1 e2 e3
  refine ⟨?_, fun o ho => ?_, ?_, ?_⟩
  · have : rd b t .data (k + j * b.lanes) = (t.tdata >>> ((k + j * b.lanes) * 32)) &&& 0xffffffff := by
      simp [rd, Fld.word, get, Bus.base, Bus.wid, loc]
    rw [← this, e1, laneP, if_pos hlt]
    cases b.ben <;> simp [val]
  · have hn : k + j * b.lanes < b.num .be := by simp only [Bus.num, loc, ho]; exact hlane
    have e4 := hr .be (k + j * b.lanes) hn
    rw [v _ rfl] at e4
    have : rd b t .be (k + j * b.lanes) = (t.tuser >>> ((k + j * b.lanes) * 4 + o)) &&& 0xf := by
      simp only [rd, Fld.word, get, Bus.base, Bus.wid, loc, ho]
      rw [Nat.add_comm]
      rfl
    rw [← this, e4, laneP, if_pos hlt]
    simp [val, ho]
  · have : rd b t .par (k + j * b.lanes) = (t.tuser >>> ((k + j * b.lanes) * 4 + b.par)) &&& 0xf := by
      simp only [rd, Fld.word, get, Bus.base, Bus.wid, loc]
      rw [Nat.add_comm]
      rfl
    rw [← this, e2, laneP, if_pos hlt]
    cases b.ben <;> simp [val]
  · have : (rd b t .keep (k + j * b.lanes)).testBit 0 = t.tkeep.testBit (k + j * b.lanes) := by
      rw [rd_testBit]; simp [Fld.word, get, Bus.base, Bus.wid, loc]
    rw [← this, e3, laneP, if_pos hlt]
    cases b.ben <;> simp [val]

theorem keep_false {b : Bus} (h : UsBus b) {t : Txn} {ps : List (Option (UsFrame × Nat))} (hr : Reads b t ps) {f : UsFrame} {off j k : Nat}
    (hj : ps[j]? = some (some (f, off))) (hjs : j < b.segs) (hk : k < b.lanes) (hlt : ¬ off + k < f.data.length) : t.tkeep.testBit (k + j * b.lanes) = false := by
  have hlane := lane_lt h hjs hk
  have v := val_lane (b := b) (c := .keep) rfl hk ps 0 0 0 j hj
  simp only [Nat.zero_add] at v
  have e3 := hr .keep (k + j * b.lanes) hlane
  rw [v] at e3
  have : (rd b t .keep (k + j * b.lanes)).testBit 0 = t.tkeep.testBit (k + j * b.lanes) := by
    rw [rd_testBit]; simp [Fld.word, get, Bus.base, Bus.wid, loc]
  rw [← this, e3, laneP, if_neg hlt]
  simp [val]

theorem getLanes_eq {b : Bus} (h : UsBus b) {t : Txn} {ps : List (Option (UsFrame × Nat))} (hr : Reads b t ps) {f : UsFrame} {off j : Nat}
    (hf : UsOk b.kind f) (hj : ps[j]? = some (some (f, off))) (hjs : j < b.segs) {lv : Nat}
    (hlv : ∀ k, k < b.lanes → lv.testBit (k + j * b.lanes) = decide (off + k < f.data.length)) (d : Bool) : ∀ (n k : Nat), k + n ≤ b.lanes →
    getLanes b t lv j (List.range' k n) (part b f (off + k) d) = part b f (off + k + n) d
  | 0, k, _ => rfl
  | n + 1, k, hn => by
    rw [List.range'_succ, getLanes]
    simp only [bit_ne]
    rw [hlv k (by omega)]
    have e : off + k + (n + 1) = off + (k + 1) + n := by omega
    rw [e, ← getLanes_eq h hr hf hj hjs hlv d n (k + 1) (by omega)]
    congr 1
    by_cases hlt : off + k < f.data.length
    · obtain ⟨e1, e2, e3, _⟩ := getLane_eq h hr hf hj hjs (by omega : k < b.lanes) hlt
      simp only [hlt, decide_true, if_true]
      rw [e1, e3]
      have hk := ben_kind b
      have hp : off + k < f.parity.length := by rw [hf.parityLength]; exact hlt
      unfold part
      simp only
      rw [take_get hlt, take_get hp]
      rcases hb : b.ben with _ | o
      · rw [hb] at hk
        simp only [Option.isSome_none] at hk
        simp [← hk, Nat.add_assoc]
      · rw [hb] at hk
        simp only [Option.isSome_some] at hk
        have hbe := hf.byteEn hk.symm
        simp only [← hk, if_true]
        rw [e2 o hb, take_get (by rw [hbe.1]; exact hlt)]
        simp [Nat.add_assoc]
    · simp only [hlt, decide_false, Bool.false_eq_true, if_false]
      unfold part
      have t1 : ∀ l : List Nat, l.length = f.data.length → l.take (off + (k + 1)) = l.take (off + k) := by
        intro l hl
        rw [List.take_of_length_le (by omega), List.take_of_length_le (by omega)]
      rw [t1 _ rfl, t1 _ hf.parityLength]
      by_cases hk : usByteEn b.kind = true
      · simp only [hk, if_true]; rw [t1 _ (hf.byteEn hk).1]
      · simp [hk]

/-! ### Starts -/

theorem and_mod (x n : Nat) : x &&& (2 ^ n - 1) = x % 2 ^ n := Nat.and_two_pow_sub_one_eq_mod x n

theorem seq_split (x : Nat) : (x &&& 15) ||| ((x >>> 4) &&& 3) <<< 4 = x % 64 := by
  apply Nat.eq_of_testBit_eq; intro j
  rw [show (64 : Nat) = 2 ^ 6 from rfl, show (15 : Nat) = 2 ^ 4 - 1 from rfl, show (3 : Nat) = 2 ^ 2 - 1 from rfl, and_mod, and_mod]
  simp only [Nat.testBit_or, Nat.testBit_shiftLeft, Nat.testBit_mod_two_pow, Nat.testBit_shiftRight]
  by_cases h4 : j < 4
  · have h6 : j < 6 := by omega
    have e3 : ¬ 4 ≤ j := by omega
    simp [h4, h6, e3]
  · by_cases h6 : j < 6
    · have e : 4 + (j - 4) = j := by omega
      have e2 : j - 4 < 2 := by omega
      have e3 : 4 ≤ j := by omega
      simp [h4, h6, e, e2, e3]
    · have e2 : ¬ j - 4 < 2 := by omega
      simp [h4, h6, e2]

theorem getSop_eq {b : Bus} (h : UsBus b) {t : Txn} {ps : List (Option (UsFrame × Nat))} (hr : Reads b t ps) {f : UsFrame} {j : Nat}
    (hj : ps[j]? = some (some (f, 0))) (hjs : j < b.segs) : getSop b t.tuser j (starts 0 (ps.take j)).length = part b f 0 false := by
  have hst := starts_take ps 0 j f hj
  rw [Nat.zero_add] at hst
  have hscl : (starts 0 (ps.take j)).length ≤ j := Nat.le_trans (starts_length _ _) (by simp)
  generalize (starts 0 (ps.take j)).length = sc at hst hscl
  obtain ⟨f1, f2, f3, f4, f5, f6⟩ := bus_facts h
  have rs : ∀ c, c.byStart b = true → sc < b.num c → rd b t c sc = val (sopP b f j sc) c sc := by
    intro c hc hn
    rw [read_start hr hc hn, hst]
  have hz : ∀ l : List Nat, l.take 0 = [] := fun l => List.take_zero
  rcases hk : b.kind with _ | _ | _ | _
  · -- RQ
    by_cases hw : b.width = 512
    · have hseg := (f2 hw).2.2
      simp only [hk, reduceCtorEq, if_false] at hseg
      have hu := f6 hk hw
      have r1 := rs .first (by simp [Fld.byStart, Fld.sops, hk]) (by simp [Bus.num, loc, hk, hw]; omega)
      have r2 := rs .last (by simp [Fld.byStart, Fld.sops, hk]) (by simp [Bus.num, loc, hk, hw]; omega)
      have r3 := rs .seq (by simp [Fld.byStart, Fld.sops, hk]) (by simp [Bus.num, loc, hk, hw]; omega)
      simp [rd, Fld.word, get, Bus.base, Bus.wid, loc, hk, hw, sopP, val] at r1 r2 r3
      simp only [getSop, hk, hw, if_true, part, hz, usSeen, usByteEn, hu]
      rw [r1, Nat.add_comm _ 8, r2, Nat.add_comm _ 61, r3]
      simp [show (15 : Nat) = 2 ^ 4 - 1 from rfl, show (63 : Nat) = 2 ^ 6 - 1 from rfl, -Nat.reducePow, -Nat.reduceSub]
    · have hs1 := f1 hw (by rw [hk]; decide)
      have hsc : sc = 0 := by omega
      have hj0 : j = 0 := by omega
      subst hsc hj0
      have r1 := rs .first (by simp [Fld.byStart, Fld.sops, hk]) (by simp [Bus.num, loc, hk, hw])
      have r2 := rs .last (by simp [Fld.byStart, Fld.sops, hk]) (by simp [Bus.num, loc, hk, hw])
      have r3 := rs .seq (by simp [Fld.byStart, Fld.sops, hk]) (by simp [Bus.num, loc, hk, hw])
      rcases f5 hk hw with hu | hu
      · simp [rd, Fld.word, get, Bus.base, Bus.wid, loc, hk, hw, sopP, val, hu] at r1 r2 r3
        simp only [getSop, hk, hw, if_false, part, hz, usSeen, usByteEn, hu]
        rw [r1, r2, r3]
        simp [show (15 : Nat) = 2 ^ 4 - 1 from rfl, -Nat.reducePow, -Nat.reduceSub]
      · have r4 := rs .seqHi (by simp [Fld.byStart, Fld.sops, hk]) (by simp [Bus.num, loc, hk, hw, hu])
        simp [rd, Fld.word, get, Bus.base, Bus.wid, loc, hk, hw, sopP, val, hu] at r1 r2 r3 r4
        simp only [getSop, hk, hw, if_false, if_true, part, hz, usSeen, usByteEn, hu]
        rw [r1, r2, r3, r4, seq_split]
        simp [show (15 : Nat) = 2 ^ 4 - 1 from rfl, -Nat.reducePow, -Nat.reduceSub]
  · -- RC
    simp [getSop, hk, part, usSeen, usByteEn]
  · -- CQ
    have rc : ∀ c, (c = .first ∨ c = .last) → j < b.num c → rd b t c j = val (sopP b f j sc) c j := by
      intro c hc hn
      have := val_cq hk hc sc ps 0 0 0 j hj
      rw [Nat.zero_add] at this
      rw [hr c j hn, this]
    by_cases hw : b.width = 512
    · have hseg := (f2 hw).2.2
      simp only [hk, reduceCtorEq, if_false] at hseg
      have r1 := rc .first (.inl rfl) (by simp [Bus.num, loc, hk, hw]; omega)
      have r2 := rc .last (.inr rfl) (by simp [Bus.num, loc, hk, hw]; omega)
      simp [rd, Fld.word, get, Bus.base, Bus.wid, loc, hk, hw, sopP, val] at r1 r2
      simp only [getSop, hk, hw, if_true, part, hz, usSeen, usByteEn]
      rw [r1, Nat.add_comm _ 8, r2]
      simp [show (15 : Nat) = 2 ^ 4 - 1 from rfl, -Nat.reducePow, -Nat.reduceSub]
    · have hs1 := f1 hw (by rw [hk]; decide)
      have hj0 : j = 0 := by omega
      subst hj0
      have r1 := rc .first (.inl rfl) (by simp [Bus.num, loc, hk, hw])
      have r2 := rc .last (.inr rfl) (by simp [Bus.num, loc, hk, hw])
      simp [rd, Fld.word, get, Bus.base, Bus.wid, loc, hk, hw, sopP, val] at r1 r2
      simp only [getSop, hk, hw, if_false, part, hz, usSeen, usByteEn]
      rw [r1, r2]
      simp [show (15 : Nat) = 2 ^ 4 - 1 from rfl, -Nat.reducePow, -Nat.reduceSub]
  · -- CC
    simp [getSop, hk, part, usSeen, usByteEn]

/-! ### Segments -/

theorem starts_concat : ∀ (ps : List (Option (UsFrame × Nat))) (seg : Nat) (p), (starts seg (ps ++ [p])).length = (starts seg ps).length + (match p with | some (_, 0) => 1 | _ => 0)
  | [], seg, none => rfl
  | [], seg, some (f, 0) => rfl
  | [], seg, some (f, n + 1) => rfl
  | none :: ps, seg, p => by rw [List.cons_append, starts, starts, starts_concat ps]
  | some (f, off) :: ps, seg, p => by
    rw [List.cons_append, starts, starts]
    have := starts_concat ps (seg + 1) p
    split
    · rw [List.length_cons, List.length_cons, this]; omega
    · exact this

theorem anyDisc_mem {ps : List (Option (UsFrame × Nat))} {f : UsFrame} {off : Nat} (h : some (f, off) ∈ ps) (hd : f.discontinue = true) : anyDisc ps = true := by
  unfold anyDisc
  rw [List.any_eq_true]
  exact ⟨_, h, hd⟩

theorem disc_read {b : Bus} {t : Txn} {ps : List (Option (UsFrame × Nat))} (hr : Reads b t ps) : (t.tuser &&& 1 <<< b.disc ≠ 0) ↔ anyDisc ps = true := by
  rw [bit_ne]
  have e := rd_bit0 b t .disc rfl (by simp [Bus.wid, loc]) 0
  rw [hr .disc 0 (by simp [Bus.num, loc]), val_disc] at e
  have e2 : b.base .disc + 0 * b.wid .disc = b.disc := by simp [Bus.base, Bus.wid, loc]
  rw [e2] at e
  rw [e]
  by_cases h : anyDisc ps = true <;> simp [h]

theorem getSegs_recv {b : Bus} (h : UsBus b) {t : Txn} {ps : List (Option (UsFrame × Nat))} (hr : Reads b t ps) (hok : SlotsOk b ps) (hlen : ps.length = b.segs)
    {m : Masks} (hm : MaskOk b ps m) {bad : Prop} (hbad : ∀ f off, some (f, off) ∈ ps → anyDisc ps = true → f.discontinue = true ∨ bad)
    {a a' : Option (UsFrame × Nat)} {slots : List (Option (UsFrame × Nat))} {out : List UsFrame} (hrec : Stream.Recv b.lanes len a slots a' out) :
    ∀ (j : Nat) (s : Snk), (∀ i, slots[i]? = ps[j + i]?) → j + slots.length = b.segs → Rel b bad s.frame a →
      ∃ s' fs, getSegs b t m s (starts 0 (ps.take j)).length (List.range' j slots.length) = .ok (s', fs) ∧ Rel b bad s'.frame a' ∧ List.Forall₂ (Got b bad) fs out := by
  induction hrec with
  | nil a => intro j s _ _ hrel; exact ⟨s, [], rfl, hrel, .nil⟩
  | @skip a r a' out hrec ih =>
    intro j s hsl hjl hrel
    rw [List.length_cons] at hjl
    have h0 : ps[j]? = some none := by have := hsl 0; simpa using this.symm
    obtain ⟨s', fs, g1, g2, g3⟩ := ih (j + 1) s (fun i => by have := hsl (i + 1); rw [show j + (i + 1) = j + 1 + i by omega] at this; simpa using this) (by omega) hrel
    refine ⟨s', fs, ?_, g2, g3⟩
    have hjl2 : j < ps.length := (List.getElem?_eq_some_iff.mp h0).1
    have htk : ps.take (j + 1) = ps.take j ++ [none] := by rw [List.take_succ, h0]; rfl
    rw [htk, starts_concat] at g1
    rw [List.length_cons, List.range'_succ, getSegs]
    have hv := (hm j).1 h0
    have : m.segValid &&& 1 <<< j = 0 := by
      by_contra hc
      have := (bit_ne m.segValid j).mp hc
      rw [hv] at this; cases this
    rw [if_pos this]
    exact g1
  | @slot f off r a' out hrec ih =>
    intro j s hsl hjl hrel
    rw [List.length_cons] at hjl
    have h0 : ps[j]? = some (some (f, off)) := by have := hsl 0; simpa using this.symm
    have hmem : some (f, off) ∈ ps := List.mem_of_getElem? h0
    obtain ⟨hf, ho⟩ := hok f off hmem
    have hjs : j < b.segs := by omega
    obtain ⟨m1, m2, m3, m4⟩ := (hm j).2 f off h0
    have htk : ps.take (j + 1) = ps.take j ++ [some (f, off)] := by rw [List.take_succ, h0]; rfl
    have ih' := ih (j + 1) 
    rw [htk, starts_concat] at ih'
    rw [List.length_cons, List.range'_succ, getSegs]
    have hv : ¬ (m.segValid &&& 1 <<< j = 0) := (bit_ne m.segValid j).mpr m1
    rw [if_neg hv]
    simp only [bit_ne m.segSop, m2, bit_ne m.segEop, m3]
    -- the frame before the lanes
    have hfr : ∃ d, (if decide (off = 0) = true then (some (getSop b t.tuser j (starts 0 (ps.take j)).length), (starts 0 (ps.take j)).length + 1)
        else (s.frame, (starts 0 (ps.take j)).length)) = (some (part b f off d), (starts 0 (ps.take j)).length + (match some (f, off) with | some (_, 0) => 1 | _ => 0)) ∧
        (f.discontinue = true → d = true ∨ off = 0) ∧ (d = true → f.discontinue = true ∨ bad) := by
      cases off with
      | zero =>
        refine ⟨false, ?_, fun _ => .inr rfl, fun h => by cases h⟩
        simp only [decide_true, if_true]
        rw [getSop_eq h hr h0 hjs]
      | succ n =>
        rw [if_neg (by omega)] at hrel
        obtain ⟨d, e1, e2, e3⟩ := hrel
        refine ⟨d, ?_, fun hh => .inl (e2 hh), e3⟩
        simp [e1]
    obtain ⟨d, hfr, hd1, hd2⟩ := hfr
    rw [hfr]
    simp only
    have hdisc : (if t.tuser &&& 1 <<< b.disc ≠ 0 then { part b f off d with discontinue := true } else part b f off d) = part b f off (d || anyDisc ps) := by
      by_cases ha : anyDisc ps = true
      · rw [if_pos ((disc_read hr).mpr ha), ha, Bool.or_true]; rfl
      · rw [if_neg (fun hh => ha ((disc_read hr).mp hh))]
        simp [ha]
    rw [hdisc]
    have hlanes := getLanes_eq h hr hf h0 hjs m4 (d || anyDisc ps) b.lanes 0 (by omega)
    rw [← List.range_eq_range', Nat.add_zero] at hlanes
    rw [hlanes]
    have hd3 : f.discontinue = true → (d || anyDisc ps) = true := fun hh => by rw [anyDisc_mem hmem hh, Bool.or_true]
    have hd4 : (d || anyDisc ps) = true → f.discontinue = true ∨ bad := by
      intro hh
      rcases Bool.or_eq_true _ _ ▸ hh with hh | hh
      · exact hd2 hh
      · exact hbad f off hmem hh
    by_cases hend : f.data.length ≤ off + b.lanes
    · have hnx : Stream.next b.lanes len (f, off) = none := by unfold Stream.next; exact if_pos hend
      rw [hnx] at ih'
      obtain ⟨s', fs, g1, g2, g3⟩ := ih' ⟨none⟩ (fun i => by have := hsl (i + 1); rw [show j + (i + 1) = j + 1 + i by omega] at this; simpa using this) (by omega) (.inl rfl)
      refine ⟨s', part b f (off + b.lanes) (d || anyDisc ps) :: fs, ?_, g2, ?_⟩
      · simp only [hend, decide_true, if_true]
        rw [g1]
      · show List.Forall₂ _ _ ((if len f ≤ off + b.lanes then [f] else []) ++ out)
        rw [if_pos hend]
        exact .cons ⟨_, part_full hf hend _, hd3, hd4⟩ g3
    · have hnx : Stream.next b.lanes len (f, off) = some (f, off + b.lanes) := by unfold Stream.next; exact if_neg hend
      rw [hnx] at ih'
      obtain ⟨s', fs, g1, g2, g3⟩ := ih' ⟨some (part b f (off + b.lanes) (d || anyDisc ps))⟩
        (fun i => by have := hsl (i + 1); rw [show j + (i + 1) = j + 1 + i by omega] at this; simpa using this) (by omega) ⟨_, rfl, hd3, hd4⟩
      refine ⟨s', fs, ?_, g2, ?_⟩
      · simp only [hend, decide_false, Bool.false_eq_true, if_false]
        rw [g1]
      · show List.Forall₂ _ _ ((if len f ≤ off + b.lanes then [f] else []) ++ out)
        rw [if_neg hend]
        exact g3

/-! ### The masks -/

theorem plan_walk {b : Bus} (hl : 1 ≤ b.lanes) : ∀ n c (q : List UsFrame), WalkOk b.lanes c.isSome (Stream.plan b.lanes len n c q).1
  | 0, c, q => trivial
  | n + 1, some (f, off), q => by
    refine ⟨.inr rfl, ?_⟩
    have := plan_walk hl n (Stream.next b.lanes len (f, off)) q
    have e : (Stream.next b.lanes len (f, off)).isSome = decide (off + b.lanes < f.data.length) := by
      unfold Stream.next
      by_cases h : f.data.length ≤ off + b.lanes
      · simp [len, h]
      · simp [len, h]; omega
    rw [e] at this
    exact this
  | n + 1, none, f :: q => by
    refine ⟨.inl rfl, ?_⟩
    have := plan_walk hl n (Stream.next b.lanes len (f, 0)) q
    have e : (Stream.next b.lanes len (f, 0)).isSome = decide (0 + b.lanes < f.data.length) := by
      unfold Stream.next
      by_cases h : f.data.length ≤ b.lanes
      · simp [len, h]
      · simp [len, h]; omega
    rw [e] at this
    exact this
  | n + 1, none, [] => by
    have : ∀ m, WalkOk b.lanes false (List.replicate m (none : Option (UsFrame × Nat))) := by
      intro m
      induction m with
      | zero => trivial
      | succ m ih => exact ⟨rfl, ih⟩
    exact this (n + 1)

/-- The first slot. -/
theorem plan_head {b : Bus} {n : Nat} {c : Option (UsFrame × Nat)} {q : List UsFrame} (hm : Stream.Mid len c) (hp : ¬ (c = none ∧ q = [])) :
    ∃ f off r, (Stream.plan b.lanes len (n + 1) c q).1 = some (f, off) :: r ∧ c = (if off = 0 then none else some (f, off)) ∧
      (n = 0 → (Stream.plan b.lanes len (n + 1) c q).2.1 = Stream.next b.lanes len (f, off)) := by
  match c, q with
  | some (f, off), q =>
    refine ⟨f, off, _, rfl, ?_, fun h => by subst h; rfl⟩
    rw [if_neg (by have := (hm f off rfl).1; omega)]
  | none, f :: q => exact ⟨f, 0, _, rfl, rfl, fun h => by subst h; rfl⟩
  | none, [] => exact absurd ⟨rfl, rfl⟩ hp

theorem masks_ok {b : Bus} (h : UsBus b) {t : Txn} {c : Option (UsFrame × Nat)} {q : List UsFrame} (hm : Stream.Mid len c) (hp : ¬ (c = none ∧ q = []))
    (hr : Reads b t (Stream.plan b.lanes len b.segs c q).1) (hok : SlotsOk b (Stream.plan b.lanes len b.segs c q).1)
    (hlast : b.segs = 1 → t.tlast = if (Stream.plan b.lanes len b.segs c q).2.1 = none then 1 else 0) {bad : Prop} {fr : Option UsFrame} (hrel : Rel b bad fr c) :
    MaskOk b (Stream.plan b.lanes len b.segs c q).1 (masks b t fr) := by
  obtain ⟨h1, hl, _⟩ := table_lanes h
  obtain ⟨_, _, _, f4, _⟩ := bus_facts h
  obtain ⟨n, hn⟩ : ∃ n, b.segs = n + 1 := ⟨b.segs - 1, by omega⟩
  obtain ⟨f, off, r, e1, e2, e3⟩ := plan_head (b := b) (n := n) hm hp
  rw [← hn] at e1 e3
  have hlen := Stream.plan_length b.lanes len b.segs c q
  have hwalk := plan_walk hl b.segs c q
  generalize hc' : (Stream.plan b.lanes len b.segs c q).2.1 = c' at *
  generalize hps : (Stream.plan b.lanes len b.segs c q).1 = ps at *
  subst e1
  have hof := hok f off (by simp)
  by_cases hs1 : b.segs = 1
  · have hn0 : n = 0 := by omega
    have hr0 : r = [] := by rw [List.length_cons] at hlen; apply List.eq_nil_of_length_eq_zero; omega
    subst hr0
    unfold masks
    rw [if_pos hs1]
    intro j
    refine ⟨fun hh => ?_, fun f' off' hh => ?_⟩
    · cases j <;> simp at hh
    · cases j with
      | succ j => simp at hh
      | zero =>
        simp only [List.getElem?_cons_zero, Option.some.injEq, Prod.mk.injEq] at hh
        obtain ⟨rfl, rfl⟩ := hh
        refine ⟨by simp, ?_, ?_, fun k hk => ?_⟩
        · by_cases h0 : off = 0
          · subst h0
            rw [if_pos rfl] at e2
            subst e2
            rcases hrel with hrel | ⟨_, hrel⟩ <;> subst hrel <;> simp
          · rw [if_neg h0] at e2
            subst e2
            obtain ⟨d, hrel, _⟩ := hrel
            subst hrel
            have : ¬ (part b f off d).data = [] := by
              intro hh
              have := congrArg List.length hh
              simp only [part, List.length_take, List.length_nil] at this
              omega
            simp [this, h0]
        · rw [hlast hs1, e3 hn0]
          unfold Stream.next
          by_cases he : f.data.length ≤ off + b.lanes
          · simp [len, he]
          · simp [len, he]
        · by_cases hlt : off + k < f.data.length
          · have := (getLane_eq h hr hof.1 (j := 0) rfl (by omega) hk hlt).2.2.2
            simpa [hlt] using this
          · have := keep_false h hr (j := 0) rfl (by omega) hk hlt
            simpa [hlt] using this
  · have hwide : b.width = 512 ∨ b.kind = .rc ∧ b.width ≥ 256 := by
      rcases f4 hs1 with hw | ⟨hk, hw, _⟩
      · exact .inl hw
      · exact .inr ⟨hk, by omega⟩
    have hwt : WalkOk b.lanes true (some (f, off) :: r) := ⟨.inr rfl, hwalk.2⟩
    unfold masks
    rw [if_neg hs1, if_pos hwide]
    refine walk_masks h hlen hok hwt ?_
    rcases f4 hs1 with hw | ⟨hk, hw, hl4, hs2⟩
    · exact marks_wide h hw hr hok hlen _
    · have := marks_rc h hk hw hs2 hl4 hr hok hwt hlen
      have hb : fr.isSome = busyOf (some (f, off) :: r) := by
        by_cases h0 : off = 0
        · rw [if_pos h0] at e2
          subst e2
          rcases hrel with hrel | ⟨hnk, _⟩
          · subst hrel; simp [busyOf, h0]
          · exact absurd hk hnk
        · rw [if_neg h0] at e2
          subst e2
          obtain ⟨d, hrel, _⟩ := hrel
          subst hrel; simp [busyOf, h0]
      rw [hb]
      exact this

/-! ### Runs -/

theorem putLanes_tlast {b : Bus} {f : UsFrame} {seg : Nat} : ∀ (ks : List Nat) (t : Txn) (off last : Nat) {t' : Txn} {off' last' : Nat},
    putLanes b f seg ks t off last = .ok (t', off', last') → t'.tlast = t.tlast
  | [], t, off, last, t', off', last', h => by cases h; rfl
  | k :: ks, t, off, last, t', off', last', h => by
    rw [putLanes] at h
    split at h
    · split at h
      · cases h
      split at h
      · cases h
      split at h
      · cases h
      have := putLanes_tlast ks _ _ _ h; exact this
    · have := putLanes_tlast ks _ _ _ h; exact this

theorem putSeg_tlast {b : Bus} {seg : Nat} {a a' : Acc} {c : Cur} {c' : Option Cur} (h : putSeg b seg a c = .ok (a', c')) (hl : a.t.tlast ≤ 1) : a'.t.tlast ≤ 1 := by
  unfold putSeg at h
  simp only at h
  split at h
  · cases h
  rename_i t off last hp
  have := putLanes_tlast _ _ _ _ hp
  have h2 : t.tlast ≤ 1 := by
    rw [this]
    split <;> split <;> exact hl
  split at h
  · cases h
    show (if b.segs = 1 then 1 else t.tlast) ≤ 1
    split <;> omega
  · cases h
    exact h2

theorem putSegs_tlast {b : Bus} : ∀ (l : List Nat) (a : Acc) (c : Option Cur) (q : List UsFrame) {a' : Acc} {c' : Option Cur} {q' : List UsFrame},
    putSegs b l a c q = .ok (a', c', q') → a.t.tlast ≤ 1 → a'.t.tlast ≤ 1
  | [], a, c, q, a', c', q', h, hl => by cases h; exact hl
  | seg :: segs, a, some c, q, a', c', q', h, hl => by
    rw [putSegs] at h
    split at h
    · cases h
    rename_i hp
    exact putSegs_tlast segs _ _ _ h (putSeg_tlast hp hl)
  | _ :: _, a, none, [], a', c', q', h, hl => by cases h; exact hl
  | seg :: segs, a, none, f :: q, a', c', q', h, hl => by
    rw [putSegs] at h
    split at h
    · cases h
    rename_i hp
    exact putSegs_tlast segs _ _ _ h (putSeg_tlast hp hl)

theorem plan_mem {b : Bus} (hl : 0 < b.lanes) : ∀ n c q, Stream.Mid len c → (∀ f ∈ Stream.pend c q, UsOk b.kind f) →
    ∀ f off, some (f, off) ∈ (Stream.plan b.lanes len n c q).1 → f ∈ Stream.pend c q ∧ off < f.data.length
  | 0, c, q, _, _, f, off, h => by simp [Stream.plan] at h
  | n + 1, some (g, o), q, hm, hok, f, off, h => by
    simp only [Stream.plan, List.mem_cons, Option.some.injEq, Prod.mk.injEq] at h
    have hsub : ∀ x ∈ Stream.pend (Stream.next b.lanes len (g, o)) q, x ∈ g :: q := by
      intro x hx
      have := Stream.pend_next (lanes := b.lanes) (len := len) (g, o) q
      rw [← this]; exact List.mem_append_right _ hx
    rcases h with ⟨rfl, rfl⟩ | h
    · exact ⟨by simp [Stream.pend], (hm f off rfl).2⟩
    · have := plan_mem hl n _ q (Stream.mid_next hl) (fun x hx => hok x (hsub x hx)) f off h
      exact ⟨hsub _ this.1, this.2⟩
  | n + 1, none, g :: q, hm, hok, f, off, h => by
    simp only [Stream.plan, List.mem_cons, Option.some.injEq, Prod.mk.injEq] at h
    have hsub : ∀ x ∈ Stream.pend (Stream.next b.lanes len (g, 0)) q, x ∈ g :: q := by
      intro x hx
      have := Stream.pend_next (lanes := b.lanes) (len := len) (g, 0) q
      rw [← this]; exact List.mem_append_right _ hx
    rcases h with ⟨rfl, rfl⟩ | h
    · exact ⟨by simp [Stream.pend], List.length_pos_iff.mpr (hok f (by simp [Stream.pend])).nonempty⟩
    · have := plan_mem hl n _ q (Stream.mid_next hl) (fun x hx => hok x (hsub x hx)) f off h
      exact ⟨hsub _ this.1, this.2⟩
  | n + 1, none, [], _, _, f, off, h => by simp [Stream.plan] at h

theorem carry_ok {b : Bus} {t : Txn} (h : ∀ w, get t w < 2 ^ b.size w) (hl : t.tlast ≤ 1) : b.carry t = .ok t := by
  have h0 : t.tdata < 2 ^ b.width := h 0
  have h1 : t.tkeep < 2 ^ b.byteLanes := h 1
  have h2 : t.tuser < 2 ^ b.tuser := h 2
  unfold Bus.carry
  rw [S10.signal_ok (p := true) fun _ => h0, S10.signal_ok (p := true) fun _ => (show t.tlast < 2 ^ 1 by omega), S10.signal_ok (p := true) fun _ => h1,
    S10.signal_ok (p := true) fun _ => h2]
  rfl

/-- One transaction, from the source to the sink. -/
theorem beat_ok {b : Bus} (h : UsBus b) {c : Option (UsFrame × Nat)} {q : List UsFrame} (hm : Stream.Mid len c) (hp : ¬ (c = none ∧ q = []))
    (hok : ∀ f ∈ Stream.pend c q, UsOk b.kind f) {bad : Prop} (hbad : b.segs ≠ 1 → ∀ f ∈ Stream.pend c q, f.discontinue = true → bad) {k : Snk} (hk : Rel b bad k.frame c) :
    ∃ a k' fs out, putSegs b (List.range b.segs) {} (c.map toCur) q =
        .ok (a, (Stream.plan b.lanes len b.segs c q).2.1.map toCur, (Stream.plan b.lanes len b.segs c q).2.2) ∧
      b.carry a.t = .ok a.t ∧ getSegs b a.t (masks b a.t k.frame) k 0 (List.range b.segs) = .ok (k', fs) ∧ List.Forall₂ (Got b bad) fs out ∧
      Rel b bad k'.frame (Stream.plan b.lanes len b.segs c q).2.1 ∧ Stream.Mid len (Stream.plan b.lanes len b.segs c q).2.1 ∧
      out ++ Stream.pend (Stream.plan b.lanes len b.segs c q).2.1 (Stream.plan b.lanes len b.segs c q).2.2 = Stream.pend c q := by
  obtain ⟨h1, hl, _⟩ := table_lanes h
  have hlen := Stream.plan_length b.lanes len b.segs c q
  obtain ⟨l, sc', ec', e1, e2⟩ := putSegs_eq h b.segs 0 0 0 {} c q (by omega) (by omega) hm hok
  rw [← List.range_eq_range'] at e1
  have hlast := putSegs_tlast _ _ _ _ e1 (show (0 : Nat) ≤ 1 by omega)
  obtain ⟨out, r1, r2, r3⟩ := Stream.recv_plan (len := len) hl b.segs c q hm
  have hpm := plan_mem (b := b) hl b.segs c q hm hok
  have hsl : SlotsOk b (Stream.plan b.lanes len b.segs c q).1 := fun f off hf => ⟨hok f (hpm f off hf).1, (hpm f off hf).2⟩
  have hfit := fit_beat h _ 0 0 0 hsl (by omega) (by omega) (by omega)
  generalize ht : ({ (beatP b 0 0 0 (Stream.plan b.lanes len b.segs c q).1).foldl (put b) {} with tlast := l } : Txn) = t at e1 hlast
  have hget : ∀ w, get t w = get ((beatP b 0 0 0 (Stream.plan b.lanes len b.segs c q).1).foldl (put b) {}) w := by
    intro w; subst ht
    match w with
    | 0 | 1 | 2 => rfl
  have hr : Reads b t (Stream.plan b.lanes len b.segs c q).1 := by
    intro f i hi
    have : rd b t f i = rd b ((beatP b 0 0 0 (Stream.plan b.lanes len b.segs c q).1).foldl (put b) {}) f i := by
      rw [rd, rd, hget]
    rw [this, rd_puts (table_ok h) hi _ _ hfit, rd_zero, Nat.zero_or]
  have hmask := masks_ok h hm hp hr hsl (fun hs1 => by
    have := e2.2 hs1 hp
    simp only [hs1, and_true] at this
    rw [← ht]
    rw [hs1]
    exact this) hk
  obtain ⟨k', fs, g1, g2, g3⟩ := getSegs_recv h hr hsl hlen hmask (bad := bad) (fun f off hf hd => by
    by_cases hs1 : b.segs = 1
    · left
      rw [hs1] at hf hd hlen
      generalize (Stream.plan b.lanes len 1 c q).1 = ps at *
      obtain ⟨p, rfl⟩ := List.length_eq_one_iff.mp hlen
      simp only [List.mem_singleton] at hf
      subst hf
      simpa [anyDisc] using hd
    · right
      unfold anyDisc at hd
      rw [List.any_eq_true] at hd
      obtain ⟨p, hp1, hp2⟩ := hd
      cases p with
      | none => cases hp2
      | some p => exact hbad hs1 p.1 (hpm p.1 p.2 hp1).1 hp2) r1 0 k (fun i => by rw [Nat.zero_add]) (by omega) hk
  rw [hlen, ← List.range_eq_range'] at g1
  refine ⟨_, k', fs, out, e1, carry_ok (fun w => ?_) hlast, g1, g3, g2, r3, r2⟩
  rw [show (Acc.mk t sc' ec').t = t from rfl, hget]
  refine puts_lt (table_ok h) w _ _ hfit ?_
  have : get {} w = 0 := by match w with | 0 | 1 | 2 => rfl
  rw [this]; exact Nat.two_pow_pos _

theorem forall2_append {α β : Type} {R : α → β → Prop} {a a' : List α} {c c' : List β} (h : List.Forall₂ R a c) (h' : List.Forall₂ R a' c') :
    List.Forall₂ R (a ++ a') (c ++ c') := by
  induction h with
  | nil => exact h'
  | cons h _ ih => exact .cons h ih

theorem toCur_frame (c : Option (UsFrame × Nat)) : (c.map toCur).map (·.frame) = c.map (·.1) := by
  cases c <;> rfl

theorem run_ok {b : Bus} (h : UsBus b) {bad : Prop} : ∀ (evs : List Ev) (c : Option (UsFrame × Nat)) (q : List UsFrame) (k : Snk),
    Stream.Mid len c → (∀ f ∈ Stream.pend c q ++ usSent evs, UsOk b.kind f) → (b.segs ≠ 1 → ∀ f ∈ Stream.pend c q ++ usSent evs, f.discontinue = true → bad) →
    Rel b bad k.frame c →
    ∃ c' q' ts k' fs out, Src.run b ⟨q, c.map toCur⟩ evs = .ok (⟨q', c'.map toCur⟩, ts) ∧ Snk.run b k ts = .ok (k', fs) ∧ List.Forall₂ (Got b bad) fs out ∧
      out ++ Stream.pend c' q' = Stream.pend c q ++ usSent evs ∧ Rel b bad k'.frame c' ∧ Stream.Mid len c'
  | [], c, q, k, hm, hok, hbad, hk => ⟨c, q, [], k, [], [], rfl, rfl, .nil, by simp [usSent], hk, hm⟩
  | .send f :: evs, c, q, k, hm, hok, hbad, hk => by
    have hp : Stream.pend c (q ++ [f]) ++ usSent evs = Stream.pend c q ++ usSent (.send f :: evs) := by
      simp [Stream.pend, usSent]
    obtain ⟨c', q', ts, k', fs, out, h1, h2, h3, h4, h5, h6⟩ := run_ok h evs c (q ++ [f]) k hm (by rwa [hp]) (by rwa [hp]) hk
    refine ⟨c', q', ts, k', fs, out, ?_, h2, h3, by rw [h4, hp], h5, h6⟩
    simp only [Src.run, Src.step, h1]
    rfl
  | .beat :: evs, c, q, k, hm, hok, hbad, hk => by
    have hs : usSent (.beat :: evs) = usSent evs := rfl
    rw [hs] at hok hbad ⊢
    by_cases hi : c = none ∧ q = []
    · obtain ⟨rfl, rfl⟩ := hi
      obtain ⟨c', q', ts, k', fs, out, h1, h2, h3, h4, h5, h6⟩ := run_ok h evs none [] k hm hok hbad hk
      refine ⟨c', q', ts, k', fs, out, ?_, h2, h3, h4, h5, h6⟩
      simp only [Option.map_none] at h1
      simp [Src.run, Src.step, h1]
    · obtain ⟨a, k1, f1, o1, b1, b2, b3, b4, b5, b6, b7⟩ := beat_ok h hm hi (fun f hf => hok f (List.mem_append_left _ hf))
        (fun hs f hf => hbad hs f (List.mem_append_left _ hf)) hk
      have hsub : ∀ f ∈ Stream.pend (Stream.plan b.lanes len b.segs c q).2.1 (Stream.plan b.lanes len b.segs c q).2.2 ++ usSent evs, f ∈ Stream.pend c q ++ usSent evs := by
        intro f hf
        rw [← b7]
        rcases List.mem_append.mp hf with hf | hf
        · exact List.mem_append_left _ (List.mem_append_right _ hf)
        · exact List.mem_append_right _ hf
      obtain ⟨c', q', ts, k', fs, out, h1, h2, h3, h4, h5, h6⟩ := run_ok h evs _ _ k1 b6 (fun f hf => hok f (hsub f hf)) (fun hs f hf => hbad hs f (hsub f hf)) b5
      refine ⟨c', q', a.t :: ts, k', f1 ++ fs, o1 ++ out, ?_, ?_, ?_, ?_, h5, h6⟩
      · have hi' : ¬ (c.map toCur = none ∧ q = []) := by cases c <;> simp_all
        simp only [Src.run, Src.step, if_neg hi', b1, b2, h1]
        rfl
      · simp only [Snk.run, b3, h2]
      · exact forall2_append b4 h3
      · rw [List.append_assoc, h4, ← List.append_assoc, b7]

/-- Enough transactions empty the source. -/
theorem drain_ok {b : Bus} (h : UsBus b) : ∀ (n : Nat) (c : Option (UsFrame × Nat)) (q : List UsFrame),
    Stream.Mid len c → (∀ f ∈ Stream.pend c q, UsOk b.kind f) → Stream.work len c q ≤ n →
    ∃ ts, Src.run b ⟨q, c.map toCur⟩ (List.replicate n .beat) = .ok (⟨[], none⟩, ts)
  | n, c, q, hm, hok, hw => by
    obtain ⟨hs, hl, _⟩ := table_lanes h
    by_cases hi : c = none ∧ q = []
    · obtain ⟨rfl, rfl⟩ := hi
      refine ⟨[], ?_⟩
      induction n with
      | zero => rfl
      | succ n ih =>
        have := ih (by simp [Stream.work])
        simp only [Option.map_none] at this
        simp [List.replicate_succ, Src.run, Src.step, this]
    · have hlt := Stream.work_plan (n := b.segs) hl hm hs hi
      cases n with
      | zero => omega
      | succ n =>
        obtain ⟨k, hk⟩ : ∃ k : Snk, Rel b True k.frame c := by
          cases c with
          | none => exact ⟨⟨none⟩, .inl rfl⟩
          | some c => exact ⟨⟨some (part b c.1 c.2 true)⟩, true, rfl, fun _ => rfl, fun _ => .inr trivial⟩
        obtain ⟨a, k1, f1, o1, b1, b2, b3, b4, b5, b6, b7⟩ := beat_ok h hm hi hok (fun _ _ _ _ => trivial) hk
        obtain ⟨ts, hts⟩ := drain_ok h n _ _ b6 (fun f hf => hok f (by rw [← b7]; exact List.mem_append_right _ hf)) (by omega)
        refine ⟨a.t :: ts, ?_⟩
        have hi' : ¬ (c.map toCur = none ∧ q = []) := by cases c <;> simp_all
        simp only [List.replicate_succ, Src.run, Src.step, if_neg hi', b1, b2, hts]
        rfl

theorem run_append {b : Bus} : ∀ (e1 e2 : List Ev) (s s1 s2 : Src) (t1 t2 : List Txn), Src.run b s e1 = .ok (s1, t1) →
    Src.run b s1 e2 = .ok (s2, t2) → Src.run b s (e1 ++ e2) = .ok (s2, t1 ++ t2)
  | [], e2, s, s1, s2, t1, t2, h1, h2 => by cases h1; exact h2
  | e :: e1, e2, s, s1, s2, t1, t2, h1, h2 => by
    simp only [Src.run] at h1
    split at h1
    · cases h1
    rename_i s' ts' hstep
    split at h1
    · cases h1
    rename_i s'' ts'' hrun
    cases h1
    simp only [List.cons_append, Src.run, hstep, run_append e1 e2 _ _ _ _ _ hrun h2, List.append_assoc]

theorem snk_prefix {b : Bus} : ∀ (t1 t2 : List Txn) (k k2 : Snk) (fs : List UsFrame), Snk.run b k (t1 ++ t2) = .ok (k2, fs) →
    ∃ k1 f1, Snk.run b k t1 = .ok (k1, f1) ∧ f1 <+: fs
  | [], t2, k, k2, fs, h => ⟨k, [], rfl, List.nil_prefix⟩
  | t :: t1, t2, k, k2, fs, h => by
    simp only [List.cons_append, Snk.run] at h ⊢
    split at h
    · cases h
    rename_i k' f' hg
    split at h
    · cases h
    rename_i k'' f'' hr
    cases h
    obtain ⟨k1, f1, g1, g2⟩ := snk_prefix t1 t2 _ _ _ hr
    simp only [g1]
    exact ⟨_, _, rfl, (List.prefix_append_right_inj _).mpr g2⟩

theorem init_rel (b : Bus) {bad : Prop} : Rel b bad (Snk.init b).frame none := by
  by_cases h : b.kind = .rc
  · left; simp [Snk.init, h]
  · right; simp [Snk.init, h]

theorem got_plain {b : Bus} {bad : Prop} {fs out : List UsFrame} (h : List.Forall₂ (Got b bad) fs out) : fs.map usPlain = out.map (usSeen b) := by
  induction h with
  | nil => rfl
  | cons h _ ih =>
    obtain ⟨d, rfl, _⟩ := h
    rw [List.map_cons, List.map_cons, ih]
    rfl

theorem got_get {b : Bus} {bad : Prop} {fs out : List UsFrame} (h : List.Forall₂ (Got b bad) fs out) : ∀ {i : Nat} {r f : UsFrame}, fs[i]? = some r → out[i]? = some f →
    Got b bad r f := by
  induction h with
  | nil => intro i r f h; simp at h
  | cons h _ ih =>
    intro i r f h1 h2
    cases i with
    | zero => simp at h1 h2; subst h1 h2; exact h
    | succ i => simp at h1 h2; exact ih h1 h2

theorem got_length {b : Bus} {bad : Prop} {fs out : List UsFrame} (h : List.Forall₂ (Got b bad) fs out) : fs.length = out.length := by
  induction h with
  | nil => rfl
  | cons _ _ ih => rw [List.length_cons, List.length_cons, ih]

end Us
end Pcie
