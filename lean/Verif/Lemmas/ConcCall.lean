import Verif.Lemmas.Conc
namespace Pcie
open Spec
namespace Conc

variable {σ : Type}

/-! ### The requests of a call -/

theorem mod16_of_bit {x i : Nat} (hi : i < 4) (h : x.testBit i = true) : x % 16 ≠ 0 := by
  intro h0
  have : (x % 2 ^ 4).testBit i = true := by rw [Nat.testBit_mod_two_pow]; simp [hi, h]
  rw [show (2 : Nat) ^ 4 = 16 from rfl, h0] at this
  simp at this

theorem readTlp_beLegal (c : ReqCfg) (attr tc a L : Nat) (h : 0 < L) : BeLegal (Region.readTlp c attr tc false a L) := by
  obtain ⟨f1, f2, -⟩ := Region.readTlp_fields c attr tc false a L h
  have hen := Region.readTlp_enabled c attr tc a L
  generalize Region.readTlp c attr tc false a L = t at *
  refine ⟨by omega, ?_, ?_⟩
  · obtain ⟨-, h2, h3⟩ := (hen a).mpr ⟨Nat.le_refl _, by omega⟩
    rw [if_pos (by omega)] at h3
    exact mod16_of_bit (Nat.mod_lt _ (by omega)) h3
  · intro hl
    obtain ⟨-, h2, h3⟩ := (hen (a + L - 1)).mpr ⟨by omega, by omega⟩
    have e : (a + L - 1 - t.address) / 4 = t.length - 1 := by omega
    simp only [e] at h3
    rw [if_neg (by omega), if_pos (by first | trivial | omega)] at h3
    exact mod16_of_bit (Nat.mod_lt _ (by omega)) h3

theorem readTlp_tag (c : ReqCfg) (attr tc a L : Nat) : (Region.readTlp c attr tc false a L).tag = 0 := by
  unfold Region.readTlp
  have : ∀ T : Tlp, (T.setAddrBe a L).1.tag = T.tag := fun T => by
    unfold Tlp.setAddrBe; simp only; split <;> (try split) <;> rfl
  simp only [Bool.false_eq_true, if_false]
  rw [this]
  split <;> rfl

theorem writeTlp_tag (c : ReqCfg) (attr tc x : Nat) (ch : List UInt8) : (Region.writeTlp c attr tc false x ch).tag = 0 := by
  unfold Region.writeTlp
  have : ∀ T : Tlp, (T.setAddrBeData x ch).tag = T.tag := fun T => congrArg Tlp.tag (C07_payload T x ch).2.2 |>.trans (by
    unfold Tlp.setAddrBe; simp only; split <;> (try split) <;> rfl)
  simp only [Bool.false_eq_true, if_false]
  rw [this]
  split <;> rfl

theorem readTlp_readIn (c : ReqCfg) {lo hi : Nat} (hlo : lo % 4 = 0) (hhi : hi % 4 = 0) (attr tc a L : Nat) (h : 0 < L) (h1 : a % 4 + L ≤ 128 <<< c.mrrs) (h2 : a % 4096 + L ≤ 4096)
    (h3 : lo ≤ a) (h4 : a + L ≤ hi) : ReadIn c.id lo hi (Region.readTlp c attr tc false a L) := by
  obtain ⟨f1, f2, -, -, -, f6, -, -, f9⟩ := Region.readTlp_fields c attr tc false a L h
  exact ⟨⟨_, Region.readTlp_ok c attr tc false a L h h1 h2⟩, readTlp_beLegal c attr tc a L h, by omega, by omega, f6, f9, by rw [readTlp_tag]; decide⟩

theorem readLoop_readIn (c : ReqCfg) {lo hi : Nat} (hlo : lo % 4 = 0) (hhi : hi % 4 = 0) (attr tc length n addr : Nat) (hn : n ≤ length) (h3 : lo ≤ addr) (h4 : addr + (length - n) ≤ hi) :
    ∀ x ∈ Region.readLoop c attr tc false length n addr, ReadIn c.id lo hi x.2 := by
  induction hk : length - n using Nat.strongRecOn generalizing n addr with
  | ind k ih =>
    rw [Region.readLoop]
    by_cases h : n < length
    · simp only [h, dite_true]
      obtain ⟨l1, l2, l3, l4⟩ := Region.readLen_facts c addr (length - n) (by omega)
      generalize Region.readLen c addr (length - n) = L at l1 l2 l3 l4 ⊢
      intro x hx
      rcases List.mem_cons.mp hx with rfl | hx
      · exact readTlp_readIn c hlo hhi attr tc addr L l1 l3 l4 h3 (by omega)
      · exact ih (length - (n + L)) (by omega) (n + L) (addr + L) (by omega) (by omega) (by omega) rfl x hx
    · simp [h]

theorem writeLoop_writeIn (c : ReqCfg) {lo hi : Nat} (hlo : lo % 4 = 0) (hhi : hi % 4 = 0) (attr tc : Nat) (data : List UInt8) (n addr : Nat) (hn : n ≤ data.length) (h3 : lo ≤ addr)
    (h4 : addr + (data.length - n) ≤ hi) : ∀ t ∈ Region.writeLoop c attr tc false data n addr, WriteIn c.id lo hi t := by
  induction hk : data.length - n using Nat.strongRecOn generalizing n addr with
  | ind k ih =>
    rw [Region.writeLoop]
    by_cases h : n < data.length
    · simp only [h, dite_true]
      obtain ⟨l1, l2, l3, l4⟩ := Region.writeLen_facts c addr (data.length - n) (by omega)
      generalize Region.writeLen c addr (data.length - n) = L at l1 l2 l3 l4 ⊢
      have hs : (slice data n (n + L)).length = L := by rw [slice_length _ _ _ (by omega)]; omega
      intro t ht
      rcases List.mem_cons.mp ht with rfl | ht
      · obtain ⟨f1, f2, -, -, -, f6, -, -, -, f10⟩ := Region.writeTlp_fields c attr tc false addr (slice data n (n + L)) (by omega)
        exact ⟨⟨_, Region.writeTlp_ok c attr tc false addr (slice data n (n + L)) (by omega) (by omega) (by omega)⟩, by omega, by omega, f6, f10, by rw [writeTlp_tag]; decide⟩
      · exact ih (data.length - (n + L)) (by omega) (n + L) (addr + L) (by omega) (by omega) (by omega) rfl t ht
    · simp [h]

theorem writeTlp_data (c : ReqCfg) (attr tc addr : Nat) (chunk : List UInt8) (i : Nat) (hi : i < chunk.length) :
    (Region.writeTlp c attr tc false addr chunk).data[addr + i - (Region.writeTlp c attr tc false addr chunk).address]? = some chunk[i] := by
  unfold Region.writeTlp
  simp only [Bool.false_eq_true, if_false]
  exact (C07_payload _ addr chunk).2.1 i hi

/-- The write requests of a call carry its data. -/
theorem writeLoop_data (c : ReqCfg) (attr tc : Nat) (data : List UInt8) (n addr : Nat) (hn : n ≤ data.length) :
    (∀ a, addr ≤ a → a < addr + (data.length - n) → ∃ t ∈ Region.writeLoop c attr tc false data n addr, byteEnabled t a) ∧
    ∀ t ∈ Region.writeLoop c attr tc false data n addr, ∀ a, byteEnabled t a → addr ≤ a ∧ a < addr + (data.length - n) ∧ t.data[a - t.address]? = data[n + (a - addr)]? := by
  induction hk : data.length - n using Nat.strongRecOn generalizing n addr with
  | ind k ih =>
    rw [Region.writeLoop]
    by_cases h : n < data.length
    · simp only [h, dite_true]
      obtain ⟨l1, l2, l3, l4⟩ := Region.writeLen_facts c addr (data.length - n) (by omega)
      generalize Region.writeLen c addr (data.length - n) = L at l1 l2 l3 l4 ⊢
      have hs : (slice data n (n + L)).length = L := by rw [slice_length _ _ _ (by omega)]; omega
      obtain ⟨i1, i2⟩ := ih (data.length - (n + L)) (by omega) (n + L) (addr + L) (by omega) rfl
      have hen := Region.writeTlp_enabled c attr tc addr (slice data n (n + L))
      constructor
      · intro a h1 h2
        by_cases ha : a < addr + L
        · exact ⟨_, List.mem_cons_self .., (hen a).mpr ⟨h1, by omega⟩⟩
        · obtain ⟨t, ht, hb⟩ := i1 a (by omega) (by omega)
          exact ⟨t, List.mem_cons_of_mem _ ht, hb⟩
      · intro t ht a ha
        rcases List.mem_cons.mp ht with rfl | ht
        · obtain ⟨h1, h2⟩ := (hen a).mp ha
          refine ⟨h1, by omega, ?_⟩
          have := writeTlp_data c attr tc addr (slice data n (n + L)) (a - addr) (by omega)
          rw [Nat.add_sub_cancel' h1] at this
          rw [this, ← List.getElem?_eq_getElem]
          unfold slice
          rw [List.getElem?_drop, List.getElem?_take, if_pos (by omega)]
        · obtain ⟨j1, j2, j3⟩ := i2 t ht a ha
          exact ⟨by omega, by omega, by rw [j3]; congr 1; omega⟩
    · simp only [h, dite_false]
      refine ⟨fun a h1 h2 => by omega, fun t ht => by cases ht⟩

/-! ### Reading -/

theorem readLoop_bytes (c : ReqCfg) (attr tc length n addr : Nat) (hn : n ≤ length) (op : Tlp → List Tlp) (P : Nat → UInt8 → Prop) (acc : List UInt8)
    (hop : ∀ t ∈ (Region.readLoop c attr tc false length n addr).map Prod.snd, ∃ M rcb mps first l, ReadsBytes t first l ∧ LegalCpls M rcb mps first l (op t) ∧
      ∀ a, byteEnabled t a → P a (M a)) :
    ∃ bytes, Region.consumeAll op (Region.readLoop c attr tc false length n addr) acc = .ok (acc ++ bytes) ∧ bytes.length = length - n ∧
      ∀ j b, bytes[j]? = some b → P (addr + j) b := by
  induction hk : length - n using Nat.strongRecOn generalizing n addr acc with
  | ind k ih =>
    rw [Region.readLoop] at hop ⊢
    by_cases h : n < length
    · simp only [h, dite_true] at hop ⊢
      obtain ⟨l1, l2, l3, l4⟩ := Region.readLen_facts c addr (length - n) (by omega)
      generalize Region.readLen c addr (length - n) = L at l1 l2 l3 l4 hop ⊢
      obtain ⟨M, rcb, mps, first, l, ⟨-, -, last, hf, hl, rfl⟩, hc, hP⟩ := hop _ (List.mem_cons_self ..)
      have hen := Region.readTlp_enabled c attr tc addr L
      have e1 : first = addr := by
        have := (hen first).mp hf.1
        have := hf.2 addr ((hen addr).mpr ⟨Nat.le_refl _, by omega⟩)
        omega
      have e2 : last = addr + L - 1 := by
        have := (hen last).mp hl.1
        have := hl.2 (addr + L - 1) ((hen _).mpr ⟨by omega, by omega⟩)
        omega
      subst e1 e2
      rw [show first + L - 1 - first + 1 = L by omega] at hc
      obtain ⟨bytes, b1, b2, b3⟩ := ih (length - (n + L)) (by omega) (n + L) (first + L) (by omega) (acc ++ M.read first L)
        (fun t ht => hop t (by rw [List.map_cons]; exact List.mem_cons_of_mem _ ht)) rfl
      refine ⟨M.read first L ++ bytes, ?_, ?_, ?_⟩
      · unfold Region.consumeAll
        rw [consume_legal hc L 0 acc (by omega)]
        simp only [bind, Except.bind]
        rw [b1, List.append_assoc]
      · rw [List.length_append, Mem.read_length, b2]; omega
      · intro j b hj
        have hlen := Mem.read_length M first L
        by_cases hjL : j < L
        · rw [List.getElem?_append_left (by omega)] at hj
          have hh := (Mem.read_holds M first L).2 j (by omega)
          rw [List.getElem?_eq_getElem (by omega)] at hj
          injection hj with hj
          rw [← hj, hh]
          exact hP _ ((hen _).mpr ⟨by omega, by omega⟩)
        · rw [List.getElem?_append_right (by omega), hlen] at hj
          have := b3 _ _ hj
          rw [show first + L + (j - L) = first + j by omega] at this
          exact this
    · simp only [h, dite_false] at hop ⊢
      exact ⟨[], by simp [Region.consumeAll], by simp; omega, fun j b hj => by simp at hj⟩

/-! ### What one history adds to another -/

theorem start_len {o o' : Ops} {t : Tlp} {n : Nat} (h : o.step (.start t [] n) = .ok o') : o.ops.length ≤ o'.ops.length := by
  unfold Ops.step at h
  simp only at h
  split at h
  · injection h with h; subst h; simp
  · injection h with h; subst h; exact Nat.le_refl _

theorem recv_len {o o' : Ops} {i : Nat} (h : o.step (.recv i) = .ok o') : o.ops.length ≤ o'.ops.length := by
  have := congrArg List.length (recv_same h).1
  simp only [List.length_map] at this
  omega

/-- One event: what it adds to the record. -/
theorem grow1 {C : Completer σ} {e : ConcEv σ} {s s' : Conc σ} (h : s.step C e = some (.ok s')) :
    ∃ L S, s'.log = s.log ++ L ∧ s'.sent = s.sent ++ S ∧ (∀ m, .other m ∈ L → .other m = e) ∧ (∀ w, (none, w) ∈ S ↔ .post w = e) ∧ s.ops.ops.length ≤ s'.ops.ops.length := by
  unfold step at h
  cases e with
  | start t n =>
    simp only at h
    split at h
    · cases h
    · next o ho =>
      injection h with h; injection h with h; subst h
      exact ⟨[], [], by simp, by simp, by simp, by simp, start_len ho⟩
  | send i =>
    simp only at h
    split at h
    · cases h
    · split at h
      · injection h with h; injection h with h; subst h
        exact ⟨[], [_], by simp, rfl, by simp, by simp, Nat.le_refl _⟩
      · cases h
  | post t =>
    injection h with h; injection h with h; subst h
    exact ⟨[], [(none, t)], by simp, rfl, by simp, by simp, Nat.le_refl _⟩
  | handle =>
    simp only at h
    split at h
    · cases h
    · split at h
      · cases h
      · injection h with h; injection h with h; subst h
        exact ⟨[_], [], rfl, by simp, by simp, by simp, Nat.le_refl _⟩
    · split at h
      · cases h
      · injection h with h; injection h with h; subst h
        exact ⟨[_], [], rfl, by simp, by simp, by simp, by simp [answer]⟩
  | other m =>
    injection h with h; injection h with h; subst h
    exact ⟨[.other m], [], rfl, by simp, by simp, by simp, Nat.le_refl _⟩
  | arrive i =>
    simp only at h
    split at h
    · cases h
    · next o ho =>
      injection h with h; injection h with h; subst h
      exact ⟨[], [], by simp, by simp, by simp, by simp, by rw [(arrive_same ho).1]⟩
  | recv i =>
    simp only at h
    split at h
    · cases h
    · next o ho =>
      injection h with h; injection h with h; subst h
      exact ⟨[], [], by simp, by simp, by simp, by simp, recv_len ho⟩

theorem grow {C : Completer σ} : ∀ (es : List (ConcEv σ)) {s s' : Conc σ}, s.run C es = some (.ok s') →
    ∃ L S, s'.log = s.log ++ L ∧ s'.sent = s.sent ++ S ∧ (∀ m, .other m ∈ L → .other m ∈ es) ∧ (∀ w, (none, w) ∈ S ↔ .post w ∈ es) ∧ s.ops.ops.length ≤ s'.ops.ops.length
  | [], s, s', h => by
    injection h with h; injection h with h; subst h
    exact ⟨[], [], by simp, by simp, by simp, by simp, Nat.le_refl _⟩
  | e :: es, s, s', h => by
    unfold run at h
    split at h
    · cases h
    · cases h
    · next s1 h1 =>
      obtain ⟨L1, S1, a1, a2, a3, a4, a5⟩ := grow1 h1
      obtain ⟨L2, S2, b1, b2, b3, b4, b5⟩ := grow es h
      refine ⟨L1 ++ L2, S1 ++ S2, by rw [b1, a1, List.append_assoc], by rw [b2, a2, List.append_assoc], ?_, ?_, Nat.le_trans a5 b5⟩
      · intro m hm
        rcases List.mem_append.mp hm with hm | hm
        · rw [a3 m hm]; exact List.mem_cons_self ..
        · exact List.mem_cons_of_mem _ (b3 m hm)
      · intro w
        rw [List.mem_append, List.mem_cons, a4, b4]

theorem run_append {C : Completer σ} : ∀ (es fs : List (ConcEv σ)) {s s1 : Conc σ}, s.run C es = some (.ok s1) → s.run C (es ++ fs) = s1.run C fs
  | [], fs, s, s1, h => by injection h with h; injection h with h; subst h; rfl
  | e :: es, fs, s, s1, h => by
    rw [List.cons_append]
    unfold run at h
    split at h
    · cases h
    · cases h
    · next s2 h2 =>
      have e1 : s.run C (e :: (es ++ fs)) = s2.run C (es ++ fs) := by simp only [run, h2]
      rw [e1]; exact run_append es fs h

theorem run_split {C : Completer σ} : ∀ (es fs : List (ConcEv σ)) {s s' : Conc σ}, s.run C (es ++ fs) = some (.ok s') → ∃ s1, s.run C es = some (.ok s1) ∧ s1.run C fs = some (.ok s')
  | [], fs, s, s', h => ⟨s, rfl, h⟩
  | e :: es, fs, s, s', h => by
    rw [List.cons_append] at h
    unfold run at h
    split at h
    · cases h
    · cases h
    · next s2 h2 =>
      obtain ⟨s1, h3, h4⟩ := run_split es fs h
      exact ⟨s1, by simp only [run, h2]; exact h3, h4⟩

/-- Operations in the record have been started. -/
theorem sent_bound {view : σ → Mem} {Good : σ → Prop} {rid : PcieId} {lo hi : Nat} {m0 : Mem} {s : Conc σ} (h : I view Good rid lo hi m0 s) {i : Nat} {t : Tlp} (hm : (some i, t) ∈ s.sent) :
    i < s.ops.ops.length := by
  rw [← h.fifo] at hm
  refine h.bound i ?_
  unfold nums
  rcases List.mem_append.mp hm with hm | hm
  · exact List.mem_append_right _ (by rw [← h.srv]; exact List.mem_filterMap.mpr ⟨_, hm, rfl⟩)
  · exact List.mem_append_left _ (List.mem_append_right _ (List.mem_filterMap.mpr ⟨_, hm, rfl⟩))

/-- Something that is not in a prefix comes after it. -/
theorem prefix_of_not_mem {α : Type} {x y b c : List α} {a : α} (h : x ++ y = b ++ a :: c) (hn : a ∉ x) : ∃ p, b = x ++ p ∧ y = p ++ a :: c := by
  rcases List.append_eq_append_iff.mp h with ⟨p, e1, e2⟩ | ⟨p, e1, e2⟩
  · exact ⟨p, e1, e2⟩
  · cases p with
    | nil => exact ⟨[], by simpa using e1.symm, by simpa using e2.symm⟩
    | cons z p =>
      rw [List.cons_append] at e2
      injection e2 with e3 e4
      exact absurd (by rw [e1, e3]; simp) hn

theorem actsOf_reqs (view : σ → Mem) : ∀ (l : List (ConcAct σ)), (∀ m, .other m ∉ l) → actsOf view l = (handledReqs l).map (fun x => .req x.2)
  | [], _ => rfl
  | .other m :: l, h => absurd (List.mem_cons_self ..) (h m)
  | .req i t :: l, h => by
    have := actsOf_reqs view l (fun m hm => h m (List.mem_cons_of_mem _ hm))
    show MemAct.req t :: actsOf view l = _
    rw [this]; rfl

/-- The byte after writes that all write the same. -/
theorem byteAfter_val {m0 : Mem} {a : Nat} {v : UInt8} (A : List MemAct) : ∀ (R : List Tlp) (b : UInt8), ByteAfter m0 a (A ++ R.map .req) b →
    (∃ r ∈ R, IsWrite r ∧ byteEnabled r a) → (∀ r ∈ R, IsWrite r → byteEnabled r a → r.data[a - r.address]? = some v) → b = v := by
  intro R
  induction hk : R.length generalizing R with
  | zero => intro b _ ⟨r, hr, _⟩ _; rw [List.length_eq_zero_iff.mp hk] at hr; cases hr
  | succ k ih =>
    intro b hb hex hall
    rcases List.eq_nil_or_concat R with rfl | ⟨R', x, rfl⟩
    · cases hk
    · rw [List.concat_eq_append] at *
      rw [List.map_append, ← List.append_assoc] at hb
      by_cases hx : IsWrite x ∧ byteEnabled x a
      · have hv := hall x (by simp) hx.1 hx.2
        exact DmaSys.byteAfter_unique hb v (.write _ x v hx.1 hx.2 hv)
      · have hb' : ByteAfter m0 a (A ++ R'.map .req) b := by
          generalize hl : A ++ R'.map .req ++ [x].map .req = l at hb
          have inj : ∀ {l l' : List MemAct} {x y : MemAct}, l ++ [x] = l' ++ [y] → l = l' ∧ x = y := by
            intro l l' x y h
            have := List.append_inj' h rfl
            exact ⟨this.1, by simpa using this.2⟩
          rw [List.map_singleton] at hl
          cases hb with
          | start => simp at hl
          | other => cases (inj hl).2
          | write _ _ _ h3 h4 => cases (inj hl).2; exact absurd ⟨h3, h4⟩ hx
          | keep _ _ _ _ h4 => rw [(inj hl).1]; exact h4
        refine ih R' (by simpa using hk) b hb' ?_ (fun r hr => hall r (by simp [hr]))
        obtain ⟨r, hr, hw⟩ := hex
        rcases List.mem_append.mp hr with hr | hr
        · exact ⟨r, hr, hw⟩
        · rw [List.mem_singleton.mp hr] at hw; exact absurd hw hx

end Conc
end Pcie
