import Verif.Spec.CapSpace
import Verif.Lemmas.CfgAccess
import Verif.Lemmas.CapsWalk
namespace Pcie
open Spec

namespace Cfg

theorem op_write_eq {σ} (ops : CapOps σ) (f : Fn σ) (tag : Tlp → Nat) (t : Tlp) (hty : t.fmtType = some .CFG_WRITE_1)
    (hdev : t.completer_id.device = f.id.device ∧ t.completer_id.function = f.id.function) (v : Nat) (hv : unpackLE t.data = .ok v) :
    (Fn.op ops tag f t).1 = ⟨{ f.id with bus := t.completer_id.bus }, ops.write f.regs (t.address / 4) v t.first_be⟩ := by
  obtain ⟨q1, q2, q3, q4, q5⟩ := toType0_write (tag t) t hty
  unfold Fn.op
  simp only [q1, Option.some.injEq, reduceCtorEq, if_false, if_true]
  unfold Fn.handleWrite
  rw [q3, if_pos hdev]
  simp only [capture_eq, q2, q4, q5]
  rw [show t.address >>> 2 = t.address / 4 by rw [Nat.shiftRight_eq_div_pow], hv]

theorem writeTlp_shift (dev : PcieId) (o a : Nat) (chunk : List UInt8) (h0 : 0 < chunk.length) (h1 : a % 4 + chunk.length ≤ 4) :
    (writeTlp dev (4 * o + a) chunk).data = (writeTlp dev a chunk).data ∧
    (writeTlp dev (4 * o + a) chunk).first_be = (writeTlp dev a chunk).first_be := by
  have e : (4 * o + a) % 4 = a % 4 := by omega
  have e2 : 3 - (4 * o + a + chunk.length + 3) % 4 = 3 - (a + chunk.length + 3) % 4 := by omega
  unfold writeTlp Tlp.setAddrBeData Tlp.setAddrBe
  simp only [e, e2]
  constructor <;> (repeat' split) <;> first | rfl | omega

/-- Registers of `ops2` from `o` on that act on a part of the state as `ops1` does. -/
theorem write_window {σ τ} (ops1 : CapOps σ) (ops2 : CapOps τ) (tag : Tlp → Nat) (o L : Nat) (emb : σ → τ)
    (hemb : ∀ s k d m, k < L → ops2.write (emb s) (o + k) d m = emb (ops1.write s k d m))
    (dev : PcieId) (data : List UInt8) (n a : Nat) (hn : n ≤ data.length) (ha : a + (data.length - n) ≤ 4 * L) (id : PcieId) (s : σ)
    (hdev : dev.device = id.device ∧ dev.function = id.function) :
    ∃ id' s', (writeReqs dev data n a).foldl (fun w req => (Fn.op ops1 tag w req).1) ⟨id, s⟩ = ⟨id', s'⟩ ∧
      (writeReqs dev data n (4 * o + a)).foldl (fun w req => (Fn.op ops2 tag w req).1) ⟨id, emb s⟩ = ⟨id', emb s'⟩ := by
  induction hk : data.length - n using Nat.strongRecOn generalizing n a id s with
  | ind k ih =>
    rw [writeReqs, writeReqs]
    by_cases h : n < data.length
    · simp only [h, dite_true, List.foldl_cons]
      rw [show IoRegion.len (4 * o + a) (data.length - n) = IoRegion.len a (data.length - n) by unfold IoRegion.len; omega]
      obtain ⟨l1, l2, l3, l4⟩ := IoRegion.len_facts a (data.length - n) (by omega)
      generalize IoRegion.len a (data.length - n) = ln at l1 l2 l3 l4 ⊢
      have hs : (slice data n (n + ln)).length = ln := by rw [slice_length _ _ _ (by omega)]; omega
      obtain ⟨hok, b1, b2, b3, -⟩ := writeTlp_ok dev a (slice data n (n + ln)) (by omega) (by omega)
      obtain ⟨hok', c1, c2, -⟩ := writeTlp_ok dev (4 * o + a) (slice data n (n + ln)) (by omega) (by omega)
      obtain ⟨d1, d2⟩ := writeTlp_shift dev o a (slice data n (n + ln)) (by omega) (by omega)
      obtain ⟨v, v1, -⟩ := unpackLE_ok _ b3
      rw [op_write_eq ops1 _ tag _ hok.type (by rw [b2]; exact hdev) v v1,
        op_write_eq ops2 _ tag _ hok'.type (by rw [c2]; exact hdev) v (by rw [d1]; exact v1), b1, b2, c1, c2, d2]
      simp only
      rw [show (4 * o + a) / 4 * 4 / 4 = o + a / 4 * 4 / 4 by omega, hemb _ _ _ _ (by omega), show 4 * o + a + ln = 4 * o + (a + ln) by omega]
      exact ih (data.length - (n + ln)) (by omega) (n + ln) (a + ln) (by omega) (by omega) _ _ hdev rfl
    · simp only [h, dite_false, List.foldl_nil]
      exact ⟨id, s, rfl, rfl⟩

end Cfg

variable {S : Type} (beh behx : Nat → CapOps S)

theorem Fn.read_caps {σ} (ops : CapOps σ) (x : Fn σ) (reg : Nat) (h : 16 ≤ reg) (h' : reg < 1024) : (Fn.ops ops).read x reg = ops.read x.common.caps reg := by
  cases x with
  | ep f =>
    show f.read ops reg = _
    unfold Ep.read Common.read Fn.common
    rw [if_neg (by omega), if_neg (by omega), if_neg (by omega), if_neg (by omega), if_neg (by omega), if_neg (by omega), if_neg (by omega),
      if_neg (by omega), if_neg (by omega), if_neg (by omega), if_neg (by omega), if_neg (by omega), if_neg (by omega), if_pos ⟨h, h'⟩]
  | br p f =>
    show f.read ops reg = _
    unfold Br.read Common.read Fn.common
    rw [if_neg (by omega), if_neg (by omega), if_neg (by omega), if_neg (by omega), if_neg (by omega), if_neg (by omega), if_neg (by omega),
      if_neg (by omega), if_neg (by omega), if_neg (by omega), if_neg (by omega), if_neg (by omega), if_neg (by omega), if_neg (by omega),
      if_neg (by omega), if_neg (by omega), if_neg (by omega), if_neg (by omega), if_pos ⟨h, h'⟩]

/-- The function with other capabilities. -/
def Fn.putCaps {σ} (x : Fn σ) (s : σ) : Fn σ :=
  match x with
  | .ep f => .ep { f with caps := s }
  | .br p f => .br p { f with caps := s }

theorem Fn.write_caps {σ} (ops : CapOps σ) (x : Fn σ) (reg d m : Nat) (h : 16 ≤ reg) (h' : reg < 1024) :
    (Fn.ops ops).write x reg d m = x.putCaps (ops.write x.common.caps reg d m) := by
  cases x with
  | ep f =>
    show Fn.ep (f.write ops reg d m) = _
    unfold Ep.write Common.write Fn.putCaps Fn.common
    rw [if_neg (by omega), if_neg (by omega), if_neg (by omega), if_neg (by omega), if_neg (by omega), if_neg (by omega), if_pos ⟨h, h'⟩]
  | br p f =>
    show Fn.br p (f.write ops reg d m) = _
    unfold Br.write Common.write Fn.putCaps Fn.common
    rw [if_neg (by omega), if_neg (by omega), if_neg (by omega), if_neg (by omega), if_neg (by omega), if_neg (by omega), if_neg (by omega),
      if_neg (by omega), if_neg (by omega), if_neg (by omega), if_neg (by omega), if_neg (by omega), if_neg (by omega), if_neg (by omega), if_pos ⟨h, h'⟩]

theorem Fn.read_putCaps {σ} (ops : CapOps σ) (x : Fn σ) (s : σ) (reg : Nat) (h : reg < 16 ∨ 1024 ≤ reg) :
    (Fn.ops ops).read (x.putCaps s) reg = (Fn.ops ops).read x reg := by
  have h1 : ¬ (16 ≤ reg ∧ reg < 1024) := by omega
  cases x with
  | ep f => simp only [Fn.ops, Fn.putCaps, Fn.read, Ep.read, Common.read, Common.readRom, h1, if_false]
  | br p f => simp only [Fn.ops, Fn.putCaps, Fn.read, Br.read, Common.read, Common.readRom, h1, if_false]

theorem withCap_eq (x : Fn (CapSpace S)) (c : Nat) (v : S) :
    withCap x c v = x.putCaps { x.common.caps with st := fun k => if k = c then v else x.common.caps.st k } := by cases x <;> rfl
theorem withExt_eq (x : Fn (CapSpace S)) (c : Nat) (v : S) :
    withExt x c v = x.putCaps { x.common.caps with stx := fun k => if k = c then v else x.common.caps.stx k } := by cases x <;> rfl
theorem common_putCaps {σ} (x : Fn σ) (s : σ) : (x.putCaps s).common.caps = s := by cases x <;> rfl
theorem putCaps_putCaps {σ} (x : Fn σ) (s s' : σ) : (x.putCaps s).putCaps s' = x.putCaps s' := by cases x <;> rfl
theorem putCaps_self {σ} (x : Fn σ) : x.putCaps x.common.caps = x := by cases x <;> rfl

theorem withCap_self (x : Fn (CapSpace S)) (c : Nat) : withCap x c (x.common.caps.st c) = x := by
  rw [withCap_eq]
  conv => rhs; rw [← putCaps_self x]
  congr 1
  have : (fun k => if k = c then x.common.caps.st c else x.common.caps.st k) = x.common.caps.st := by funext k; split <;> simp_all
  rw [this]
theorem withExt_self (x : Fn (CapSpace S)) (c : Nat) : withExt x c (x.common.caps.stx c) = x := by
  rw [withExt_eq]
  conv => rhs; rw [← putCaps_self x]
  congr 1
  have : (fun k => if k = c then x.common.caps.stx c else x.common.caps.stx k) = x.common.caps.stx := by funext k; split <;> simp_all
  rw [this]

namespace CapSpace

theorem fill_find (l : CapList) (r : Nat → Nat → Nat) (reg : Nat) : (fill l r).findByReg reg = l.findByReg reg := rfl
theorem fill_off (l : CapList) (r : Nat → Nat → Nat) (c : Nat) : (fill l r).off c = l.off c := rfl

theorem head_arith (v n i : Nat) : v &&& 0xffff0000 ||| (n &&& 0xff) <<< 8 ||| i &&& 0xff = v / 2 ^ 16 % 2 ^ 16 * 2 ^ 16 + n % 2 ^ 8 * 2 ^ 8 + i % 2 ^ 8 := by
  have e1 : v &&& 0xffff0000 = (v / 2 ^ 16 % 2 ^ 16) <<< 16 := by
    apply Nat.eq_of_testBit_eq; intro j
    rw [show (0xffff0000 : Nat) = (2 ^ 16 - 1) <<< 16 by decide, Nat.testBit_and, Nat.testBit_shiftLeft, Nat.testBit_shiftLeft, Nat.testBit_mod_two_pow,
      Nat.testBit_div_two_pow, Nat.testBit_two_pow_sub_one]
    by_cases h : 16 ≤ j
    · simp [h, show j - 16 + 16 = j by omega, Bool.and_comm]
    · simp [h]
  have e2 : n &&& 0xff = n % 2 ^ 8 := Nat.and_two_pow_sub_one_eq_mod n 8
  have e3 : i &&& 0xff = i % 2 ^ 8 := Nat.and_two_pow_sub_one_eq_mod i 8
  rw [e1, e2, e3]
  generalize v / 2 ^ 16 % 2 ^ 16 = a
  have hn : n % 2 ^ 8 < 2 ^ 8 := Nat.mod_lt _ (by decide)
  have hi : i % 2 ^ 8 < 2 ^ 8 := Nat.mod_lt _ (by decide)
  generalize n % 2 ^ 8 = b at *
  generalize i % 2 ^ 8 = c at *
  have h1 : b <<< 8 < 2 ^ 16 := by rw [Nat.shiftLeft_eq]; omega
  rw [← Nat.shiftLeft_add_eq_or_of_lt h1, show a <<< 16 + b <<< 8 = (a <<< 8 + b) <<< 8 by simp only [Nat.shiftLeft_eq]; omega,
    ← Nat.shiftLeft_add_eq_or_of_lt hi]
  simp only [Nat.shiftLeft_eq]; omega

theorem headExt_arith (n v i : Nat) :
    (n &&& 0xfff) <<< 20 ||| (v &&& 0xf) <<< 16 ||| i &&& 0xffff = n % 2 ^ 12 * 2 ^ 20 + v % 2 ^ 4 * 2 ^ 16 + i % 2 ^ 16 := by
  have e1 : n &&& 0xfff = n % 2 ^ 12 := Nat.and_two_pow_sub_one_eq_mod n 12
  have e2 : v &&& 0xf = v % 2 ^ 4 := Nat.and_two_pow_sub_one_eq_mod v 4
  have e3 : i &&& 0xffff = i % 2 ^ 16 := Nat.and_two_pow_sub_one_eq_mod i 16
  rw [e1, e2, e3]
  have hv : v % 2 ^ 4 < 2 ^ 4 := Nat.mod_lt _ (by decide)
  have hi : i % 2 ^ 16 < 2 ^ 16 := Nat.mod_lt _ (by decide)
  generalize n % 2 ^ 12 = a
  generalize v % 2 ^ 4 = b at *
  generalize i % 2 ^ 16 = c at *
  have h1 : b <<< 16 < 2 ^ 20 := by rw [Nat.shiftLeft_eq]; omega
  rw [← Nat.shiftLeft_add_eq_or_of_lt h1, show a <<< 20 + b <<< 16 = (a <<< 4 + b) <<< 16 by simp only [Nat.shiftLeft_eq]; omega,
    ← Nat.shiftLeft_add_eq_or_of_lt hi]
  simp only [Nat.shiftLeft_eq]; omega

theorem read_shown {s : CapSpace S} (hs : NoShare s.pci) {c k : Nat} (h : Lies s.pci c 16 64) (hk : k < s.pci.len c) :
    (ops beh behx).read s (s.pci.off c + k) = shown s.pci c ((beh c).read (s.st c)) k := by
  have hhi := h.hi
  show read beh behx s _ = _
  unfold read shown
  rw [if_pos (by omega)]
  unfold CapList.read
  rw [fill_find, CapList.find_of_noShare hs h.mem (by omega) (by omega)]
  simp only [fill_off, Nat.add_sub_cancel_left]
  split
  · next hk0 => subst hk0; exact head_arith _ _ _
  · rfl

theorem readExt_shown {s : CapSpace S} (hs : NoShare s.ext) {c k : Nat} (h : Lies s.ext c 64 1024) (hk : k < s.ext.len c) :
    (ops beh behx).read s (s.ext.off c + k) = shownExt s.ext c ((behx c).read (s.stx c)) k := by
  have hlo := h.lo
  show read beh behx s _ = _
  unfold read shownExt
  rw [if_neg (by omega)]
  unfold CapList.readExt
  rw [fill_find, CapList.find_of_noShare hs h.mem (by omega) (by omega)]
  simp only [fill_off, Nat.add_sub_cancel_left]
  split
  · next hk0 => subst hk0; exact headExt_arith _ _ _
  · rfl

theorem find_none {l : CapList} {reg : Nat} (h : ∀ c, ¬ Occupies l c reg) : l.findByReg reg = none := by
  unfold CapList.findByReg
  rw [List.find?_eq_none]
  intro c hc hd
  simp at hd
  exact h c ⟨hc, hd⟩

theorem find_occ {l : CapList} {reg c : Nat} (h : l.findByReg reg = some c) : Occupies l c reg := by
  unfold CapList.findByReg at h
  have hd := List.find?_some h
  simp at hd
  exact ⟨List.mem_of_find?_eq_some h, hd⟩

end CapSpace
end Pcie
