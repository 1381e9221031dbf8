/- The programs of the host for one function, on its registers. -/
import Verif.Lemmas.HostProg
import Verif.Lemmas.Words
namespace Pcie
open Spec Phys
variable {σ τ : Type}

section
variable {ops : CapOps σ} {tag : Tlp → Nat}

theorem fromBytes_reg (v : Nat) : fromBytes [UInt8.ofNat v, UInt8.ofNat (v / 256 ^ 1)] .little = v % 2 ^ 16 ∧
    fromBytes [UInt8.ofNat v, UInt8.ofNat (v / 256 ^ 1), UInt8.ofNat (v / 256 ^ 2), UInt8.ofNat (v / 256 ^ 3)] .little = v % 2 ^ 32 := by
  simp only [fromBytes, List.foldr, UInt8.toNat_ofNat']
  omega

theorem cfgBytes_reg (x : Fn σ) (r : Nat) (i : Nat) (hi : i < 4) : cfgBytes (fnOps ops) x (4 * r + i) = UInt8.ofNat (x.read ops r / 256 ^ i) := by
  unfold cfgBytes
  rw [show (4 * r + i) / 4 = r by omega, show (4 * r + i) % 4 = i by omega]
  rfl

theorem readDword_on (id : PcieId) (x : Fn σ) {r : Nat} (hr : x.read ops r < 2 ^ 32) :
    (Host.readDword id (4 * r)).onFn ops tag id x = .ok (x, x.read ops r) := by
  unfold Host.readDword
  rw [CfgProg.onFn, if_pos ⟨rfl, by omega, by omega, by rw [show 4 * r / 4 = r by omega]; exact hr⟩, CfgProg.onFn]
  have e : Mem.read (cfgBytes (fnOps ops) x) (4 * r) 4 = [UInt8.ofNat (x.read ops r), UInt8.ofNat (x.read ops r / 256 ^ 1),
      UInt8.ofNat (x.read ops r / 256 ^ 2), UInt8.ofNat (x.read ops r / 256 ^ 3)] := by
    show [cfgBytes (fnOps ops) x (4 * r + 0), cfgBytes (fnOps ops) x (4 * r + 1), cfgBytes (fnOps ops) x (4 * r + 2), cfgBytes (fnOps ops) x (4 * r + 3)] = _
    rw [cfgBytes_reg x r 0 (by omega), cfgBytes_reg x r 1 (by omega), cfgBytes_reg x r 2 (by omega), cfgBytes_reg x r 3 (by omega), Nat.pow_zero, Nat.div_one]
  rw [e, (fromBytes_reg _).2, Nat.mod_eq_of_lt hr]

theorem readWord_on (id : PcieId) (x : Fn σ) {r : Nat} (hr : x.read ops r < 2 ^ 32) :
    (Host.readWord id (4 * r)).onFn ops tag id x = .ok (x, x.read ops r &&& 0xffff) := by
  unfold Host.readWord
  rw [CfgProg.onFn, if_pos ⟨rfl, by omega, by omega, by rw [show 4 * r / 4 = r by omega]; exact hr⟩, CfgProg.onFn]
  have e : Mem.read (cfgBytes (fnOps ops) x) (4 * r) 2 = [UInt8.ofNat (x.read ops r), UInt8.ofNat (x.read ops r / 256 ^ 1)] := by
    show [cfgBytes (fnOps ops) x (4 * r + 0), cfgBytes (fnOps ops) x (4 * r + 1)] = _
    rw [cfgBytes_reg x r 0 (by omega), cfgBytes_reg x r 1 (by omega), Nat.pow_zero, Nat.div_one]
  rw [e, (fromBytes_reg _).1, show (0xffff : Nat) = 2 ^ 16 - 1 from rfl, Nat.and_two_pow_sub_one_eq_mod]

theorem readByte_on (id : PcieId) (x : Fn σ) (hr : x.read ops 3 < 2 ^ 32) :
    (Host.readByte id 0xe).onFn ops tag id x = .ok (x, x.read ops 3 >>> 16 &&& 0xff) := by
  unfold Host.readByte
  rw [CfgProg.onFn, if_pos ⟨rfl, by omega, by omega, hr⟩]
  have e : Mem.read (cfgBytes (fnOps ops) x) 0xe 1 = [UInt8.ofNat (x.read ops 3 / 256 ^ 2)] := by
    show [cfgBytes (fnOps ops) x (4 * 3 + 2)] = _
    rw [cfgBytes_reg x 3 2 (by omega)]
  rw [e]
  simp only [CfgProg.onFn, UInt8.toNat_ofNat']
  rw [Nat.shiftRight_eq_div_pow, show (0xff : Nat) = 2 ^ 8 - 1 from rfl, Nat.and_two_pow_sub_one_eq_mod, show (256 : Nat) ^ 2 = 2 ^ 16 from rfl]

theorem writeTlp_data (id : PcieId) (r n v : Nat) (hn : n = 2 ∨ n = 4) (hv : v < 256 ^ n) :
    (Cfg.writeTlp id (4 * r) (digits n v)).data = digits 4 v ∧ (Cfg.writeTlp id (4 * r) (digits n v)).first_be = 2 ^ n - 1 := by
  have hl : (digits n v).length = n := digits_length n v
  constructor
  · unfold Cfg.writeTlp Tlp.setAddrBeData
    simp only [Tlp.setAddrBe, hl]
    rw [if_neg (by simp [hl]; omega)]
    simp only
    rw [show 4 * r % 4 = 0 by omega]
    rcases hn with rfl | rfl
    · rw [show 3 - (4 * r + 2 + 3) % 4 = 2 by omega]
      simp only [digits, List.replicate, List.nil_append, List.cons_append]
      rw [show v / 256 / 256 = 0 by omega]
      rfl
    · rw [show 3 - (4 * r + 4 + 3) % 4 = 0 by omega]
      simp
  · have p3 := (C07_payload { (({} : Tlp).setFmtType .CFG_WRITE_1) with requester_id := ⟨0, 0, 0⟩, completer_id := id } (4 * r) (digits n v)).2.2
    rw [Pcie.setAddrBe_one _ (4 * r) _ (by omega) (by omega)] at p3
    have := congrArg Tlp.first_be p3
    simp only [hl, show 4 * r % 4 = 0 by omega] at this
    rw [show (Cfg.writeTlp id (4 * r) (digits n v)).first_be = _ from this]
    rcases hn with rfl | rfl <;> rfl

theorem unpack_digits (v : Nat) (hv : v < 2 ^ 32) : Cfg.unpackLE (digits 4 v) = .ok v := by
  apply unpack_reg hv (digits_length 4 v)
  intro i hi
  obtain ⟨b, h1, h2⟩ := digits_get 4 v i hi
  rw [h1]
  congr 1
  apply UInt8.toNat_inj.1
  rw [h2, UInt8.toNat_ofNat']

theorem wrote_int (id : PcieId) (x : Fn σ) (r n v : Nat) (hn : n = 2 ∨ n = 4) (hv : v < 256 ^ n) :
    wrote ops tag id x (4 * r) (digits n v) = fnWrite ops x r v (2 ^ n - 1) := by
  have hl : (digits n v).length = n := digits_length n v
  obtain ⟨a1, a2, a3, a4, a5⟩ := Cfg.writeTlp_ok id (4 * r) (digits n v) (by omega) (by omega)
  obtain ⟨b1, b2⟩ := writeTlp_data id r n v hn hv
  obtain ⟨q1, q2, q3, q4, q5⟩ := Cfg.toType0_write (tag (Cfg.writeTlp id (4 * r) (digits n v))) _ a1.type
  have hv4 : v < 2 ^ 32 := by rcases hn with rfl | rfl <;> omega
  unfold wrote
  rw [fnOp_serve _ _ (by rw [q3, a3])]
  simp only
  unfold Cfg.Fn.serve
  simp only [q1, reduceCtorEq, Option.some.injEq, if_false, if_true]
  unfold Cfg.Fn.handleWrite
  simp only [q2, q3, q4, q5, a2, a3, b1, b2, unpack_digits v hv4, and_self, if_true, ne_eq, not_true_eq_false, if_false, fnOps]
  rw [Nat.shiftRight_eq_div_pow, show 4 * r / 4 * 4 / 2 ^ 2 = r by omega]

theorem writeDword_on (id : PcieId) (x : Fn σ) {r v : Nat} (hv : v < 2 ^ 32) (hr : (fnWrite ops x r v 0xf).range = x.range) :
    (Host.writeDword id (4 * r) v).onFn ops tag id x = .ok (fnWrite ops x r v 0xf, ()) := by
  unfold Host.writeDword Host.writeInt toBytes
  rw [if_pos (show v < 256 ^ 4 from hv)]
  have hw : wrote ops tag id x (4 * r) (digits 4 v) = fnWrite ops x r v 0xf := wrote_int id x r 4 v (.inr rfl) hv
  simp only [CfgProg.onFn]
  rw [if_pos ⟨trivial, by rw [digits_length]; omega, by rw [digits_length]; omega, by rw [hw]; exact hr⟩, hw]

theorem writeWord_on (id : PcieId) (x : Fn σ) {r v : Nat} (hv : v < 2 ^ 16) (hr : (fnWrite ops x r v 3).range = x.range) :
    (Host.writeWord id (4 * r) v).onFn ops tag id x = .ok (fnWrite ops x r v 3, ()) := by
  unfold Host.writeWord Host.writeInt toBytes
  rw [if_pos (show v < 256 ^ 2 from hv)]
  have hw : wrote ops tag id x (4 * r) (digits 2 v) = fnWrite ops x r v 3 := wrote_int id x r 2 v (.inl rfl) hv
  simp only [CfgProg.onFn]
  rw [if_pos ⟨trivial, by rw [digits_length]; omega, by rw [digits_length]; omega, by rw [hw]; exact hr⟩, hw]

theorem writeDword_over (id : PcieId) (x : Fn σ) {r v : Nat} (hv : ¬ v < 2 ^ 32) :
    (Host.writeDword id (4 * r) v).onFn ops tag id x = .error "OverflowError" := by
  unfold Host.writeDword Host.writeInt toBytes
  rw [if_neg (show ¬ v < 256 ^ 4 from hv)]
  rfl

/-! ### Register files -/

/-- `e s` is a function with the registers `s`, as far as the registers in `W` are concerned. -/
structure Emb (ops : CapOps σ) (R : CapOps τ) (e : τ → Fn σ) (I : τ → Prop) (W : Nat → Prop) : Prop where
  read : ∀ s r, (e s).read ops r = R.read s r
  write : ∀ s r v m, fnWrite ops (e s) r v m = e (R.write s r v m)
  lt : ∀ s r, I s → W r → R.read s r < 2 ^ 32
  keep : ∀ s r v m, I s → W r → m ≤ 15 → I (R.write s r v m)
  range : ∀ s r v m, W r → (e (R.write s r v m)).range = (e s).range

/-- The result with the registers as a function. -/
def liftFn {α : Type} (e : τ → Fn σ) : Py (τ × α) → Py (Fn σ × α)
  | .ok (s, a) => .ok (e s, a)
  | .error x => .error x

variable {R : CapOps τ} {e : τ → Fn σ} {I : τ → Prop} {W : Nat → Prop}

theorem Emb.rdD (E : Emb ops R e I W) (id : PcieId) {s : τ} (hs : I s) {r : Nat} (hr : W r) :
    (Host.readDword id (4 * r)).onFn ops tag id (e s) = .ok (e s, R.read s r) := by
  rw [readDword_on id (e s) (by rw [E.read]; exact E.lt s r hs hr), E.read]

theorem Emb.rdW (E : Emb ops R e I W) (id : PcieId) {s : τ} (hs : I s) {r : Nat} (hr : W r) :
    (Host.readWord id (4 * r)).onFn ops tag id (e s) = .ok (e s, R.read s r &&& 0xffff) := by
  rw [readWord_on id (e s) (by rw [E.read]; exact E.lt s r hs hr), E.read]

theorem Emb.wrD (E : Emb ops R e I W) (id : PcieId) (s : τ) {r : Nat} (hr : W r) {v : Nat} (hv : v < 2 ^ 32) :
    (Host.writeDword id (4 * r) v).onFn ops tag id (e s) = .ok (e (R.write s r v 0xf), ()) := by
  rw [writeDword_on id (e s) hv (by rw [E.write]; exact E.range s r v 0xf hr), E.write]

theorem Emb.wrW (E : Emb ops R e I W) (id : PcieId) (s : τ) {r : Nat} (hr : W r) {v : Nat} (hv : v < 2 ^ 16) :
    (Host.writeWord id (4 * r) v).onFn ops tag id (e s) = .ok (e (R.write s r v 3), ()) := by
  rw [writeWord_on id (e s) hv (by rw [E.write]; exact E.range s r v 3 hr), E.write]

theorem pure_on {α : Type} (id : PcieId) (a : α) (x : Fn σ) : (pure a : CfgProg α).onFn ops tag id x = .ok (x, a) := rfl

theorem readBarsFrom_on (E : Emb ops R e I W) (id : PcieId) (n : Nat) : ∀ (bar : Nat) (s : τ) (d : DevBars), I s →
    (∀ i, bar ≤ i → i < bar + n → W (4 + i)) →
    (Host.readBarsFrom id n bar d).onFn ops tag id (e s) = liftFn e (readBarsFrom R n bar s d) ∧
      ∀ s' d', readBarsFrom R n bar s d = .ok (s', d') → I s' := by
  induction n using Nat.strongRecOn with
  | ind n ih =>
    intro bar s d hs hW
    cases n with
    | zero => exact ⟨rfl, fun s' d' h => by rw [readBarsFrom] at h; cases h; exact hs⟩
    | succ n =>
      have w0 := hW bar (Nat.le_refl _) (by omega)
      have i1 := E.keep s (4 + bar) 0xffffffff 0xf hs w0 (by omega)
      have hlt := E.lt s _ hs w0
      have i2 := E.keep _ (4 + bar) (R.read s (4 + bar)) 0xf i1 w0 (by omega)
      rw [Host.readBarsFrom.eq_def, readBarsFrom.eq_def]
      simp only [CfgProg.onFn_bind, E.rdD id hs w0, E.wrD id _ w0 (show 0xffffffff < 2 ^ 32 by decide), E.rdD id i1 w0, E.wrD id _ w0 hlt]
      generalize R.read (R.write s (4 + bar) 0xffffffff 0xf) (4 + bar) = val at *
      generalize R.write (R.write s (4 + bar) 0xffffffff 0xf) (4 + bar) (R.read s (4 + bar)) 0xf = s2 at *
      generalize R.read s (4 + bar) = orig at *
      have hn := fun d => ih n (by omega) (bar + 1) s2 d i2 (fun i h1 h2 => hW i (by omega) (by omega))
      by_cases c1 : val = 0
      · simp only [if_pos c1]; exact hn _
      · by_cases c2 : val &&& 1 ≠ 0
        · simp only [if_neg c1, if_pos c2]; exact hn _
        · by_cases c3 : val &&& 4 ≠ 0
          · simp only [if_neg c1, if_neg c2, if_pos c3]
            cases n with
            | zero => exact ⟨rfl, fun _ _ h => nomatch h⟩
            | succ n =>
              have w1 := hW (bar + 1) (by omega) (by omega)
              have j1 := E.keep s2 (4 + (bar + 1)) 0xffffffff 0xf i2 w1 (by omega)
              have hlt2 := E.lt s2 _ i2 w0
              have j2 := E.keep _ (4 + (bar + 1)) (R.read s2 (4 + bar)) 0xf j1 w1 (by omega)
              simp only [CfgProg.onFn_bind, E.rdD id i2 w0, E.wrD id _ w1 (show 0xffffffff < 2 ^ 32 by decide), E.rdD id j1 w1, E.wrD id _ w1 hlt2]
              exact ih n (by omega) (bar + 2) _ _ j2 (fun i h1 h2 => hW i (by omega) (by omega))
          · simp only [if_neg c1, if_neg c2, if_neg c3]; exact hn _

theorem andNot_and_lt (a b k : Nat) : andNot (a &&& (2 ^ k - 1)) b < 2 ^ k := by
  apply Nat.lt_pow_two_of_testBit
  intro i hi
  rw [andNot_testBit, Nat.testBit_and, Nat.testBit_two_pow_sub_one]
  simp [show ¬ i < k by omega]

theorem readBars_on (E : Emb ops R e I W) (id : PcieId) (cnt rom : Nat) (s : τ) (d : DevBars) (hs : I s) (h1 : W 1) (hr : W rom)
    (hW : ∀ i, i < cnt → W (4 + i)) :
    (Host.readBars id cnt rom d).onFn ops tag id (e s) = liftFn e (readBars R cnt rom s d) ∧
      ∀ s' d', readBars R cnt rom s d = .ok (s', d') → I s' := by
  have hI : I (disableDecode R s) := by
    unfold disableDecode
    simp only
    split
    · exact E.keep _ _ _ _ hs h1 (by omega)
    · exact hs
  have hd : (Host.disableDecode id).onFn ops tag id (e s) = .ok (e (disableDecode R s), ()) := by
    unfold disableDecode Host.disableDecode
    simp only [CfgProg.onFn_bind, E.rdW id hs h1]
    split
    · exact E.wrW id s h1 (andNot_and_lt _ 3 16)
    · rfl
  obtain ⟨q1, q2⟩ := readBarsFrom_on (tag := tag) E id cnt 0 (disableDecode R s) d hI (fun i _ h => hW i (by omega))
  unfold Host.readBars readBars
  simp only [CfgProg.onFn_bind, hd, q1]
  cases hb : readBarsFrom R cnt 0 (disableDecode R s) d with
  | error x => exact ⟨rfl, fun _ _ h => nomatch h⟩
  | ok r =>
    obtain ⟨s2, d2⟩ := r
    have i2 := q2 s2 d2 hb
    have i3 := E.keep s2 rom 0xfffff800 0xf i2 hr (by omega)
    have i4 := E.keep _ rom (R.read s2 rom) 0xf i3 hr (by omega)
    simp only [liftFn, E.rdD id i2 hr, E.wrD id _ hr (show 0xfffff800 < 2 ^ 32 by decide), E.rdD id i3 hr, E.wrD id _ hr (E.lt s2 rom i2 hr)]
    unfold readRomInfo
    simp only
    split
    · exact ⟨rfl, fun _ _ h => by cases h; exact i4⟩
    · exact ⟨rfl, fun _ _ h => by cases h; exact i4⟩

theorem assignBarsFrom_on (E : Emb ops R e I W) (id : PcieId) (n : Nat) : ∀ (bar : Nat) (s : τ) (d : DevBars) (l : Limits), I s →
    (∀ i, bar ≤ i → i < bar + n → W (4 + i)) →
    (Host.assignBarsFrom id n bar d l).onFn ops tag id (e s) = liftFn e (assignBarsFrom R n bar s d l) ∧
      ∀ s' r, assignBarsFrom R n bar s d l = .ok (s', r) → I s' := by
  induction n using Nat.strongRecOn with
  | ind n ih =>
    intro bar s d l hs hW
    cases n with
    | zero => exact ⟨rfl, fun s' d' h => by rw [assignBarsFrom] at h; cases h; exact hs⟩
    | succ n =>
      have w0 := hW bar (Nat.le_refl _) (by omega)
      have hn := fun s (hs : I s) d l => ih n (by omega) (bar + 1) s d l hs (fun i h1 h2 => hW i (by omega) (by omega))
      rw [Host.assignBarsFrom.eq_def, assignBarsFrom.eq_def]
      simp only
      cases hd : d.info bar with
      | none => exact ⟨rfl, fun _ _ h => nomatch h⟩
      | some bi =>
        obtain ⟨raw, size⟩ := bi
        simp only
        by_cases c1 : size = 0
        · simp only [if_pos c1]; exact hn s hs d l
        · by_cases c2 : raw &&& 1 ≠ 0
          · simp only [if_neg c1, if_pos c2, CfgProg.onFn_bind]
            unfold writeDword
            by_cases hv : raw &&& 3 ||| align l.io (size - 1) < 2 ^ 32
            · simp only [if_pos hv, E.wrD id s w0 hv]
              exact hn _ (E.keep s _ _ _ hs w0 (by omega)) _ _
            · simp only [if_neg hv, writeDword_over id (e s) hv]
              exact ⟨rfl, fun _ _ h => nomatch h⟩
          · by_cases c3 : raw &&& 4 ≠ 0
            · simp only [if_neg c1, if_neg c2, if_pos c3]
              cases n with
              | zero => exact ⟨rfl, fun _ _ h => nomatch h⟩
              | succ n =>
                have w1 := hW (bar + 1) (by omega) (by omega)
                have m : ∀ a : Nat, a &&& 0xffffffff < 2 ^ 32 := fun a => Nat.and_lt_two_pow _ (by decide)
                simp only [CfgProg.onFn_bind, E.wrD id _ w0 (m _), E.wrD id _ w1 (m _)]
                exact ih n (by omega) (bar + 2) _ _ _ (E.keep _ _ _ _ (E.keep _ _ _ _ hs w0 (by omega)) w1 (by omega)) (fun i h1 h2 => hW i (by omega) (by omega))
            · simp only [if_neg c1, if_neg c2, if_neg c3, CfgProg.onFn_bind]
              unfold writeDword
              by_cases hv : raw &&& 0xf ||| align l.mem (size - 1) < 2 ^ 32
              · simp only [if_pos hv, E.wrD id s w0 hv]
                exact hn _ (E.keep s _ _ _ hs w0 (by omega)) _ _
              · simp only [if_neg hv, writeDword_over id (e s) hv]
                exact ⟨rfl, fun _ _ h => nomatch h⟩

theorem assignBars_on (E : Emb ops R e I W) (id : PcieId) (cnt rom : Nat) (s : τ) (d : DevBars) (l : Limits) (hs : I s) (hr : W rom)
    (hW : ∀ i, i < cnt → W (4 + i)) :
    (Host.assignBars id cnt rom d l).onFn ops tag id (e s) = liftFn e (assignBars R cnt rom s d l) ∧
      ∀ s' r, assignBars R cnt rom s d l = .ok (s', r) → I s' := by
  obtain ⟨q1, q2⟩ := assignBarsFrom_on (tag := tag) E id cnt 0 s d l hs (fun i _ h => hW i (by omega))
  unfold Host.assignBars assignBars
  simp only [CfgProg.onFn_bind, q1]
  cases hb : assignBarsFrom R cnt 0 s d l with
  | error x => exact ⟨rfl, fun _ _ h => nomatch h⟩
  | ok r =>
    obtain ⟨s2, d2, l2⟩ := r
    have i2 := q2 s2 _ hb
    simp only [liftFn]
    unfold assignRom
    cases hd : d2.rom with
    | none => exact ⟨rfl, fun _ _ h => by cases h; exact i2⟩
    | some bi =>
      obtain ⟨raw, size⟩ := bi
      simp only
      by_cases c1 : size = 0
      · simp only [if_pos c1]; exact ⟨rfl, fun _ _ h => by cases h; exact i2⟩
      · simp only [if_neg c1, CfgProg.onFn_bind]
        unfold writeDword
        by_cases hv : raw &&& 0x7ff ||| align l2.mem (size - 1) < 2 ^ 32
        · simp only [if_pos hv, E.wrD id s2 hr hv]
          exact ⟨rfl, fun _ _ h => by cases h; exact E.keep _ _ _ _ i2 hr (by omega)⟩
        · simp only [if_neg hv, writeDword_over id (e s2) hv]
          exact ⟨trivial, fun _ _ h => nomatch h⟩

end

end Pcie
