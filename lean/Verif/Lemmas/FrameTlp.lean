import Verif.Model.FrameTlp
import Verif.Lemmas.TlpUnpack
import Verif.Lemmas.Words
import Verif.Lemmas.Parity
import Mathlib.Tactic.Ring
namespace Pcie
open Tlp Spec

theorem or4_be (a b c d : Nat) (hb : b < 256) (hc : c < 256) (hd : d < 256) :
    a <<< 24 ||| b <<< 16 ||| c <<< 8 ||| d = a * 16777216 + b * 65536 + c * 256 + d := by
  have h1 : a <<< 24 ||| b <<< 16 = (a * 256 + b) <<< 16 := by
    have : a <<< 24 = (a <<< 8) <<< 16 := by rw [← Nat.shiftLeft_add]
    rw [this, ← Nat.shiftLeft_or_distrib, ← Nat.shiftLeft_add_eq_or_of_lt (by omega), Nat.shiftLeft_eq a 8]
  have h2 : (a * 256 + b) <<< 16 ||| c <<< 8 = ((a * 256 + b) * 256 + c) <<< 8 := by
    have : (a * 256 + b) <<< 16 = ((a * 256 + b) <<< 8) <<< 8 := by rw [← Nat.shiftLeft_add]
    rw [this, ← Nat.shiftLeft_or_distrib, ← Nat.shiftLeft_add_eq_or_of_lt (by omega), Nat.shiftLeft_eq (a * 256 + b) 8]
  rw [h1, h2, ← Nat.shiftLeft_add_eq_or_of_lt (by omega), Nat.shiftLeft_eq]
  omega

theorem u8_of_eq {n : Nat} {a : UInt8} (h : n % 256 = a.toNat) : UInt8.ofNat n = a := by
  apply UInt8.toNat_inj.mp; simpa using h

theorem unpackL_four (a b c d : UInt8) : ∃ w, unpackL [a, b, c, d] 0 = .ok w ∧ w < 2 ^ 32 ∧ packL w = .ok [a, b, c, d] ∧
    w = a.toNat * 16777216 + b.toNat * 65536 + c.toNat * 256 + d.toNat := by
  have ha := a.toNat_lt; have hb := b.toNat_lt; have hc := c.toNat_lt; have hd := d.toNat_lt
  have e := or4_be a.toNat b.toNat c.toNat d.toNat hb hc hd
  refine ⟨_, rfl, ?_, ?_, e⟩
  · rw [e]; omega
  · rw [e, packL, if_pos (by omega)]
    simp only [Nat.shiftRight_eq_div_pow]
    rw [u8_of_eq (a := a) (by omega), u8_of_eq (a := b) (by omega), u8_of_eq (a := c) (by omega), u8_of_eq (a := d) (by omega)]

theorem unpackLE_four (a b c d : UInt8) : ∃ w, Cfg.unpackLE [a, b, c, d] = .ok w ∧ w < 2 ^ 32 ∧ Cfg.packLE w = .ok [a, b, c, d] ∧
    w = d.toNat * 16777216 + c.toNat * 65536 + b.toNat * 256 + a.toNat := by
  have ha := a.toNat_lt; have hb := b.toNat_lt; have hc := c.toNat_lt; have hd := d.toNat_lt
  have e := or4_be d.toNat c.toNat b.toNat a.toNat hc hb ha
  have e' : a.toNat ||| b.toNat <<< 8 ||| c.toNat <<< 16 ||| d.toNat <<< 24 =
      d.toNat * 16777216 + c.toNat * 65536 + b.toNat * 256 + a.toNat := by
    rw [← e]; generalize a.toNat = x; generalize b.toNat <<< 8 = y; generalize c.toNat <<< 16 = z; generalize d.toNat <<< 24 = u; ac_rfl
  refine ⟨_, rfl, ?_, ?_, e'⟩
  · rw [e']; omega
  · rw [e', Cfg.packLE, if_pos (by omega)]
    simp only [Nat.shiftRight_eq_div_pow]
    rw [u8_of_eq (a := a) (by omega), u8_of_eq (a := b) (by omega), u8_of_eq (a := c) (by omega), u8_of_eq (a := d) (by omega)]

theorem beDwords_ok : ∀ (bs : List UInt8), bs.length % 4 = 0 → ∃ l, beDwords bs = .ok l ∧ packDwords packL l = .ok bs ∧
    4 * l.length = bs.length ∧ ∀ w ∈ l, w < 2 ^ 32
  | [], _ => ⟨[], rfl, rfl, rfl, by simp⟩
  | [_], h => by simp at h
  | [_, _], h => by simp at h
  | [_, _, _], h => by simp at h
  | a :: b :: c :: d :: r, h => by
    obtain ⟨l, h1, h2, h3, h4⟩ := beDwords_ok r (by simp only [List.length_cons] at h; omega)
    obtain ⟨w, w1, w2, w3, _⟩ := unpackL_four a b c d
    refine ⟨w :: l, by simp only [beDwords, w1, h1], by simp only [packDwords, w3, h2]; rfl, by simp only [List.length_cons]; omega, ?_⟩
    intro x hx
    rcases List.mem_cons.mp hx with rfl | hx
    · exact w2
    · exact h4 x hx

theorem leDwords_ok : ∀ (bs : List UInt8), bs.length % 4 = 0 → ∃ l, leDwords bs = .ok l ∧ packDwords Cfg.packLE l = .ok bs ∧
    4 * l.length = bs.length ∧ ∀ w ∈ l, w < 2 ^ 32
  | [], _ => ⟨[], rfl, rfl, rfl, by simp⟩
  | [_], h => by simp at h
  | [_, _], h => by simp at h
  | [_, _, _], h => by simp at h
  | a :: b :: c :: d :: r, h => by
    obtain ⟨l, h1, h2, h3, h4⟩ := leDwords_ok r (by simp only [List.length_cons] at h; omega)
    obtain ⟨w, w1, w2, w3, _⟩ := unpackLE_four a b c d
    refine ⟨w :: l, by simp only [leDwords, w1, h1], by simp only [packDwords, w3, h2]; rfl, by simp only [List.length_cons]; omega, ?_⟩
    intro x hx
    rcases List.mem_cons.mp hx with rfl | hx
    · exact w2
    · exact h4 x hx

theorem packDwords_append {pk : Nat → Py (List UInt8)} : ∀ {a b : List Nat} {x y : List UInt8}, packDwords pk a = .ok x →
    packDwords pk b = .ok y → packDwords pk (a ++ b) = .ok (x ++ y)
  | [], b, x, y, h1, h2 => by cases h1; exact h2
  | w :: r, b, x, y, h1, h2 => by
    simp only [packDwords] at h1
    split at h1
    · cases h1
    rename_i p hp
    split at h1
    · cases h1
    rename_i q hq
    cases h1
    simp only [List.cons_append, packDwords, hp, packDwords_append hq h2, List.append_assoc]

theorem packDwords_some : ∀ l : List Nat, (∀ w ∈ l, w < 2 ^ 32) → ∃ x, packDwords packL l = .ok x
  | [], _ => ⟨[], rfl⟩
  | w :: r, h => by
    obtain ⟨x, hx⟩ := packDwords_some r (fun w hw => h w (List.mem_cons_of_mem _ hw))
    have hw := h w (by simp)
    have hp : ∃ b, packL w = .ok b := ⟨_, by rw [packL, if_pos hw]⟩
    obtain ⟨b, hb⟩ := hp
    exact ⟨b ++ x, by simp only [packDwords, hb, hx]⟩

/-- The length of the packed header. -/
theorem packHeader_length (t : Tlp) (ty : TlpType) (h : Encodable ty t) :
    ∃ hdr, t.packHeader = .ok hdr ∧ hdr.length = 4 * t.headerSizeDw ∧ Spec.header ty t = some hdr := by
  have hbody := h.body
  have hfmt : t.fmt = ty.value.1 := by rw [← h.fmt_type]
  have hex : ∃ hdr, Spec.header ty t = some hdr := by
    unfold Spec.header
    cases hk : Spec.kind ty with
    | none => simp [hk] at hbody
    | some k => cases k <;> exact ⟨_, rfl⟩
  obtain ⟨hdr, hh⟩ := hex
  refine ⟨hdr, packHeader_eq t ty h hdr hh, ?_, hh⟩
  cases ty <;> simp [Spec.kind] at hbody <;> simp [TlpType.value] at hfmt <;>
    simp only [Spec.header, Spec.kind, Option.some.injEq] at hh <;> subst hh <;>
    simp [Spec.cfgHeader, Spec.header3dw, Spec.header4dw, Spec.cplHeader, Spec.header0, Spec.requestDw1,
      Spec.idBytes, headerSizeDw, TlpType.FOUR_DW, TlpType.FOUR_DW_DATA, hfmt]

theorem toBytes_fromBytes (o : Order) (d : List UInt8) : toBytes (fromBytes d o) d.length o = .ok d := by
  have key : ∀ d : List UInt8, digits d.length (fromBytes d .little) = d := by
    intro d
    induction d with
    | nil => rfl
    | cons a r ih =>
      have ha := a.toNat_lt
      have e : fromBytes (a :: r) .little = a.toNat + 256 * fromBytes r .little := rfl
      have e2 : (a.toNat + 256 * fromBytes r .little) / 256 = fromBytes r .little := by omega
      rw [e, List.length_cons, digits, e2, ih, u8_of_eq (a := a) (by omega)]
  cases o with
  | little => rw [toBytes, if_pos (fromLittle_lt d)]; simp only [key]
  | big =>
    have hl := fromLittle_lt d.reverse
    have hk := key d.reverse
    rw [List.length_reverse] at hl hk
    rw [toBytes, fromBig, if_pos hl]
    simp only [hk, List.reverse_reverse]

theorem packHeader_first (t : Tlp) (ty : TlpType) (h : Encodable ty t) {hdr : List UInt8} (hp : t.packHeader = .ok hdr) :
    ∃ r, hdr = Spec.header0 t ++ r := by
  obtain ⟨hdr', h1, _, h3⟩ := packHeader_length t ty h
  rw [hp] at h1
  cases h1
  have hbody := h.body
  cases hk : Spec.kind ty with
  | none => simp [hk] at hbody
  | some k =>
    simp only [Spec.header, hk] at h3
    cases k <;> simp only [Option.some.injEq] at h3 <;> subst h3
    · exact ⟨_, by rw [Spec.cfgHeader, List.append_assoc, List.append_assoc]⟩
    · exact ⟨_, by rw [Spec.header3dw, List.append_assoc]⟩
    · exact ⟨_, by rw [Spec.header4dw, List.append_assoc]⟩
    · exact ⟨_, by rw [Spec.cplHeader, List.append_assoc, List.append_assoc, List.append_assoc]⟩

theorem packL_inj {x y : Nat} {l : List UInt8} (hx : packL x = .ok l) (hy : packL y = .ok l) : x = y := by
  have a := unpackL_packL hx [] [] 0 rfl
  have b := unpackL_packL hy [] [] 0 rfl
  exact Except.ok.inj (a.symm.trans b)

/-- The first dword of the packed header. -/
theorem beDwords_first (t : Tlp) (ty : TlpType) (h : Encodable ty t) {hdr : List UInt8} (hp : t.packHeader = .ok hdr) {l : List Nat}
    (hl : beDwords hdr = .ok l) : l[0]? = some t.headerDw0 := by
  obtain ⟨r, rfl⟩ := packHeader_first t ty h hp
  have h0 := packL_header0 t ty h
  rw [Spec.header0] at h0 hl
  simp only [List.cons_append, List.nil_append, beDwords] at hl
  obtain ⟨w, w1, w2, w3, _⟩ := unpackL_four (UInt8.ofNat (t.fmt * 32 + t.type))
    (UInt8.ofNat (bit t.tag 9 * 128 + t.tc * 16 + bit t.tag 8 * 8 + bit t.attr 2 * 4 + t.ln.toNat * 2 + t.th.toNat))
    (UInt8.ofNat (t.td.toNat * 128 + t.ep.toNat * 64 + t.attr % 4 * 16 + t.at_ * 4 + t.length / 256 % 4)) (UInt8.ofNat (t.length % 256))
  rw [w1] at hl
  simp only at hl
  split at hl
  · cases hl
  · cases hl
    rw [packL_inj w3 h0]; rfl

theorem fromBig_append (a b : List UInt8) : fromBytes (a ++ b) .big = fromBytes a .big * 256 ^ b.length + fromBytes b .big := by
  have key : ∀ (b : List UInt8) (x : Nat), b.foldl (fun acc b => 256 * acc + b.toNat) x = x * 256 ^ b.length + b.foldl (fun acc b => 256 * acc + b.toNat) 0 := by
    intro b
    induction b with
    | nil => intro x; simp
    | cons c r ih =>
      intro x
      rw [List.foldl_cons, List.foldl_cons, ih, ih (256 * 0 + c.toNat), List.length_cons, Nat.pow_succ]
      ring
  simp only [fromBytes, List.foldl_append]
  exact key b _

/-- The header of a P-Tile frame: its first dword is in the top 32 bits. -/
theorem ljust_top (t : Tlp) (ty : TlpType) (h : Encodable ty t) {hdr : List UInt8} (hp : t.packHeader = .ok hdr) :
    ∃ r, fromBytes (ljust16 hdr) .big = t.headerDw0 * 2 ^ 96 + r ∧ r < 2 ^ 96 := by
  obtain ⟨hdr', h1, h2, _⟩ := packHeader_length t ty h
  rw [hp] at h1
  cases h1
  obtain ⟨r, rfl⟩ := packHeader_first t ty h hp
  have h0 := packL_header0 t ty h
  have hs : t.headerSizeDw = 3 ∨ t.headerSizeDw = 4 := by rw [headerSizeDw]; split <;> simp
  have l4 : (Spec.header0 t).length = 4 := rfl
  have hr : (r ++ List.replicate (16 - (Spec.header0 t ++ r).length) (0 : UInt8)).length = 12 := by
    simp only [List.length_append, List.length_replicate] at *; omega
  refine ⟨fromBytes (r ++ List.replicate (16 - (Spec.header0 t ++ r).length) 0) .big, ?_, ?_⟩
  · rw [ljust16, List.append_assoc, fromBig_append, hr]
    congr 2
    rw [Spec.header0] at h0 ⊢
    obtain ⟨w, w1, w2, w3, w4⟩ := unpackL_four (UInt8.ofNat (t.fmt * 32 + t.type))
      (UInt8.ofNat (bit t.tag 9 * 128 + t.tc * 16 + bit t.tag 8 * 8 + bit t.attr 2 * 4 + t.ln.toNat * 2 + t.th.toNat))
      (UInt8.ofNat (t.td.toNat * 128 + t.ep.toNat * 64 + t.attr % 4 * 16 + t.at_ * 4 + t.length / 256 % 4)) (UInt8.ofNat (t.length % 256))
    rw [← packL_inj w3 h0, w4]
    simp only [fromBytes, List.foldl_cons, List.foldl_nil]
    ring
  · have := (fromBytes_spec .big (r ++ List.replicate (16 - (Spec.header0 t ++ r).length) (0 : UInt8))).1
    rw [hr] at this
    exact this

/-- The number of dwords, by the first header dword. -/
theorem dw0_count (t : Tlp) (ty : TlpType) (h : Encodable ty t) :
    t.headerDw0.testBit 29 = decide (t.headerSizeDw = 4) ∧ t.headerDw0.testBit 30 = t.hasData ∧
    (t.hasData = true → (if t.headerDw0 % 1024 = 0 then 1024 else t.headerDw0 % 1024) = t.length) := by
  have hbody := h.body
  have hfmt : t.fmt = ty.value.1 := by rw [← h.fmt_type]
  have hl := h.length
  have hv := value_lt ty
  have := toNat_le_one t.ep; have := toNat_le_one t.td; have := toNat_le_one t.th; have := toNat_le_one t.ln
  have e := headerDw0_eq t
  have e29 : t.headerDw0 / 536870912 = t.fmt % 8 := by omega
  have e30 : t.headerDw0 / 1073741824 = t.fmt % 8 / 2 := by omega
  have e10 : t.headerDw0 % 1024 = t.length % 1024 := by omega
  have b29 : t.headerDw0.testBit 29 = decide (t.fmt % 8 % 2 = 1) := by rw [Nat.testBit_eq_decide_div_mod_eq, ← e29]
  have b30 : t.headerDw0.testBit 30 = decide (t.fmt % 8 / 2 % 2 = 1) := by rw [Nat.testBit_eq_decide_div_mod_eq, ← e30]
  rw [b29, b30, e10]
  refine ⟨?_, ?_, ?_⟩
  · cases ty <;> simp [Spec.kind] at hbody <;> simp [TlpType.value] at hfmt <;>
      simp [headerSizeDw, TlpType.FOUR_DW, TlpType.FOUR_DW_DATA, hfmt]
  · cases ty <;> simp [Spec.kind] at hbody <;> simp [TlpType.value] at hfmt <;>
      simp [hasData, TlpType.THREE_DW_DATA, TlpType.FOUR_DW_DATA, hfmt]
  · intro hd
    have hne : ¬ (ty = .CPL ∨ ty = .CPL_LOCKED) := by
      rintro (rfl | rfl) <;> simp [TlpType.value] at hfmt <;> simp [hasData, TlpType.THREE_DW_DATA, TlpType.FOUR_DW_DATA, hfmt] at hd
    rw [if_neg hne] at hl
    split <;> omega

theorem dwordParity_lt (d : Nat) : dwordParity d < 2 ^ 4 := by
  apply Nat.lt_pow_two_of_testBit
  intro i hi
  rw [dwordParity_bit]
  simp [show ¬ i < 4 by omega]

end Pcie
