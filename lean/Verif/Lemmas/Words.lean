import Verif.Spec.Words
import Verif.Lemmas.EnumBridge
/- Lemmas for C46. -/
namespace Pcie
open Spec

theorem digits_length : ∀ n w, (digits n w).length = n
  | 0, _ => rfl
  | n + 1, w => by simp [digits, digits_length n]

theorem digits_get : ∀ n w i, i < n → ∃ b, (digits n w)[i]? = some b ∧ b.toNat = w / 256 ^ i % 256
  | 0, _, _, h => by omega
  | n + 1, w, 0, _ => ⟨UInt8.ofNat w, rfl, by simp⟩
  | n + 1, w, i + 1, h => by
    obtain ⟨b, h1, h2⟩ := digits_get n (w / 256) i (by omega)
    exact ⟨b, by simpa [digits] using h1, by rw [h2, Nat.div_div_eq_div_mul, Nat.pow_succ, Nat.mul_comm]⟩

/-- The bytes of one word. -/
def encWord (o : Order) (ws w : Nat) : List UInt8 :=
  match o with | .little => digits ws w | .big => (digits ws w).reverse

theorem encWord_length (o : Order) (ws w : Nat) : (encWord o ws w).length = ws := by
  cases o <;> simp [encWord, digits_length]

theorem encWord_get (o : Order) (ws w i : Nat) (h : i < ws) :
    ∃ b, (encWord o ws w)[i]? = some b ∧ b.toNat = w / 256 ^ place o ws i % 256 := by
  cases o with
  | little => exact digits_get ws w i h
  | big =>
    obtain ⟨b, h1, h2⟩ := digits_get ws w (ws - 1 - i) (by omega)
    refine ⟨b, ?_, h2⟩
    simp only [encWord]
    rw [List.getElem?_reverse (by rw [digits_length]; exact h), digits_length, h1]

theorem toBytes_eq (o : Order) (ws w : Nat) : toBytes w ws o = if w < 256 ^ ws then .ok (encWord o ws w) else .error "OverflowError" := by
  cases o <;> rfl

theorem encode_ok (o : Order) (ws : Nat) : ∀ (words : List Nat) (acc : List UInt8), (∀ w ∈ words, w < 256 ^ ws) →
    ByteIo.encode o ws words acc = .ok (acc ++ (words.map (encWord o ws)).flatten)
  | [], acc, _ => by simp [ByteIo.encode]
  | w :: r, acc, h => by
    rw [ByteIo.encode, toBytes_eq, if_pos (h w (by simp)), ok_bind, encode_ok o ws r _ (fun v hv => h v (by simp [hv]))]
    simp

theorem encode_error (o : Order) (ws : Nat) : ∀ (words : List Nat) (acc : List UInt8), (∃ w ∈ words, 256 ^ ws ≤ w) →
    ByteIo.encode o ws words acc = .error "OverflowError"
  | [], acc, h => by simp at h
  | w :: r, acc, h => by
    rw [ByteIo.encode, toBytes_eq]
    by_cases hw : w < 256 ^ ws
    · rw [if_pos hw, ok_bind]
      refine encode_error o ws r _ ?_
      obtain ⟨v, hv, h1⟩ := h
      rcases List.mem_cons.mp hv with rfl | hv
      · omega
      · exact ⟨v, hv, h1⟩
    · rw [if_neg hw, error_bind]

theorem flatten_get (n : Nat) : ∀ (l : List (List UInt8)), (∀ x ∈ l, x.length = n) → ∀ k x, l[k]? = some x → ∀ i < n,
    l.flatten[n * k + i]? = x[i]?
  | [], _, k, x, h, _, _ => by simp at h
  | y :: r, hl, 0, x, h, i, hi => by
    simp only [List.getElem?_cons_zero, Option.some.injEq] at h
    subst h
    rw [List.flatten_cons, List.getElem?_append_left (by rw [hl y (by simp)]; omega)]
    simp
  | y :: r, hl, k + 1, x, h, i, hi => by
    have hy := hl y (by simp)
    rw [List.flatten_cons, List.getElem?_append_right (by rw [hy, Nat.mul_succ]; omega), hy,
      show n * (k + 1) + i - n = n * k + i by rw [Nat.mul_succ]; omega]
    exact flatten_get n r (fun z hz => hl z (by simp [hz])) k x (by simpa using h) i hi

theorem flatten_length (n : Nat) : ∀ (l : List (List UInt8)), (∀ x ∈ l, x.length = n) → l.flatten.length = n * l.length
  | [], _ => by simp
  | y :: r, h => by
    rw [List.flatten_cons, List.length_append, flatten_length n r (fun z hz => h z (by simp [hz])), h y (by simp), List.length_cons,
      Nat.mul_succ, Nat.add_comm]

theorem encodes_enc (o : Order) (ws : Nat) (words : List Nat) (h : ∀ w ∈ words, w < 256 ^ ws) :
    Encodes o ws words (words.map (encWord o ws)).flatten := by
  have hl : ∀ x ∈ words.map (encWord o ws), x.length = ws := by
    intro x hx
    obtain ⟨w, -, rfl⟩ := List.mem_map.mp hx
    exact encWord_length o ws w
  refine ⟨by rw [flatten_length ws _ hl, List.length_map], fun k w hk => ⟨h w (List.mem_of_getElem? hk), fun i hi => ?_⟩⟩
  obtain ⟨b, h1, h2⟩ := encWord_get o ws w i hi
  exact ⟨b, by rw [flatten_get ws _ hl k (encWord o ws w) (by simp [hk]) i hi, h1], h2⟩

theorem fromLittle_lt : ∀ d : List UInt8, fromBytes d .little < 256 ^ d.length
  | [] => by simp [fromBytes]
  | b :: r => by
    have ih := fromLittle_lt r
    have hb := b.toNat_lt
    simp only [fromBytes, List.foldr_cons, List.length_cons, Nat.pow_succ] at *
    omega

theorem fromLittle_get : ∀ (d : List UInt8) (i : Nat) (b : UInt8), d[i]? = some b → fromBytes d .little / 256 ^ i % 256 = b.toNat
  | [], _, _, h => by simp at h
  | a :: r, 0, b, h => by
    simp only [List.getElem?_cons_zero, Option.some.injEq] at h
    subst h
    have hb := a.toNat_lt
    simp only [fromBytes, List.foldr_cons, Nat.pow_zero, Nat.div_one]
    omega
  | a :: r, i + 1, b, h => by
    have ih := fromLittle_get r i b (by simpa using h)
    have hb := a.toNat_lt
    rw [← ih, Nat.pow_succ, Nat.mul_comm, ← Nat.div_div_eq_div_mul]
    simp only [fromBytes, List.foldr_cons]
    congr 2
    omega

theorem fromBig (d : List UInt8) : fromBytes d .big = fromBytes d.reverse .little := by
  simp only [fromBytes, List.foldr_reverse]
  congr 1
  funext a b
  omega

theorem fromBytes_spec (o : Order) (d : List UInt8) : fromBytes d o < 256 ^ d.length ∧
    ∀ i b, d[i]? = some b → b.toNat = fromBytes d o / 256 ^ place o d.length i % 256 := by
  cases o with
  | little => exact ⟨fromLittle_lt d, fun i b h => (fromLittle_get d i b h).symm⟩
  | big =>
    rw [fromBig]
    refine ⟨by have := fromLittle_lt d.reverse; rwa [List.length_reverse] at this, fun i b h => ?_⟩
    have hi : i < d.length := (List.getElem?_eq_some_iff.mp h).1
    refine (fromLittle_get d.reverse (d.length - 1 - i) b ?_).symm
    rw [List.getElem?_reverse (by omega), show d.length - 1 - (d.length - 1 - i) = i by omega, h]

theorem slice_word (data : List UInt8) (ws k : Nat) (h : ws * (k + 1) ≤ data.length) :
    (slice data (ws * k) (ws * (k + 1))).length = ws ∧ ∀ i < ws, (slice data (ws * k) (ws * (k + 1)))[i]? = data[ws * k + i]? := by
  rw [Nat.mul_succ] at *
  refine ⟨by simp [slice]; omega, fun i hi => ?_⟩
  simp only [slice, List.getElem?_drop]
  rw [List.getElem?_take_of_lt (by omega)]

theorem encodes_read (o : Order) (ws count : Nat) (data : List UInt8) (h : data.length = count * ws) :
    Encodes o ws ((List.range count).map fun k => fromBytes (slice data (ws * k) (ws * (k + 1))) o) data := by
  refine ⟨by simp [h, Nat.mul_comm], fun k w hk => ?_⟩
  simp only [List.getElem?_map, Option.map_eq_some_iff] at hk
  obtain ⟨a, ha, rfl⟩ := hk
  obtain ⟨hlt, hk⟩ := List.getElem?_eq_some_iff.mp ha
  simp only [List.getElem_range] at hk
  subst hk
  rw [List.length_range] at hlt
  have hle : ws * (k + 1) ≤ data.length := by rw [h, Nat.mul_comm]; exact Nat.mul_le_mul_right ws hlt
  obtain ⟨h1, h2⟩ := slice_word data ws k hle
  have hs := fromBytes_spec o (slice data (ws * k) (ws * (k + 1)))
  rw [h1] at hs
  refine ⟨hs.1, fun i hi => ?_⟩
  have hb : ws * k + i < data.length := by rw [Nat.mul_succ] at hle; omega
  refine ⟨data[ws * k + i], List.getElem?_eq_getElem hb, hs.2 i _ ?_⟩
  rw [h2 i hi, List.getElem?_eq_getElem hb]

theorem digits_unique : ∀ (n w v : Nat), w < 256 ^ n → v < 256 ^ n → (∀ j < n, w / 256 ^ j % 256 = v / 256 ^ j % 256) → w = v
  | 0, w, v, hw, hv, _ => by simp at hw hv; omega
  | n + 1, w, v, hw, hv, h => by
    rw [Nat.pow_succ] at hw hv
    have h0 := h 0 (by omega)
    simp only [Nat.pow_zero, Nat.div_one] at h0
    have := digits_unique n (w / 256) (v / 256) (by omega) (by omega) fun j hj => by
      have := h (j + 1) (by omega)
      rwa [Nat.pow_succ, Nat.mul_comm, ← Nat.div_div_eq_div_mul, ← Nat.div_div_eq_div_mul] at this
    omega

theorem encodes_unique {o : Order} {ws : Nat} {l l' : List Nat} {bytes : List UInt8} (h : Encodes o ws l bytes) (h' : Encodes o ws l' bytes)
    (hl : l.length = l'.length) : l = l' := by
  apply List.ext_getElem hl
  intro k h1 h2
  obtain ⟨a1, a2⟩ := h.2 k _ (List.getElem?_eq_getElem h1)
  obtain ⟨b1, b2⟩ := h'.2 k _ (List.getElem?_eq_getElem h2)
  refine digits_unique ws _ _ a1 b1 fun j hj => ?_
  have hi : ∃ i < ws, place o ws i = j := by
    cases o with
    | little => exact ⟨j, hj, rfl⟩
    | big => exact ⟨ws - 1 - j, by omega, by simp only [place]; omega⟩
  obtain ⟨i, hi, rfl⟩ := hi
  obtain ⟨b, e1, e2⟩ := a2 i hi
  obtain ⟨b', f1, f2⟩ := b2 i hi
  rw [e1] at f1
  cases f1
  rw [← e2, ← f2]

end Pcie
