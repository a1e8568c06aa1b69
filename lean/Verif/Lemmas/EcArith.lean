import Verif.Lemmas.EcChunks

/-!
# Compare, add, subtract and multiply chunked integers
-/

namespace Verif.EcChunks

/-! ## Comparison -/

theorem sum_zipIdx_shift (l : List Int) (k : Nat) :
    ((l.zipIdx k).map fun t => t.1 * 2 ^ t.2).sum = 2 ^ k * (l.zipIdx.map fun t => t.1 * 2 ^ t.2).sum := by
  induction l generalizing k with
  | nil => simp
  | cons x l ih =>
    simp only [List.zipIdx_cons, List.map_cons, List.sum_cons, Nat.zero_add]
    rw [ih (k + 1), ih 1]
    ring

theorem compare_cons (x y : Nat) (a b : List Nat) :
    compare (x :: a) (y :: b) = ((x : Int) - y).sign + 2 * compare a b := by
  unfold compare
  simp only [List.zipWith_cons_cons, List.zipIdx_cons, List.map_cons, List.sum_cons, Nat.zero_add, pow_zero, mul_one]
  rw [sum_zipIdx_shift _ 1, pow_one]

theorem compare_sign (B : Nat) (a b : List Nat) (h : a.length = b.length) (ha : ∀ c ∈ a, c < B)
    (hb : ∀ c ∈ b, c < B) :
    (0 < compare a b ↔ Nat.ofDigits B b < Nat.ofDigits B a) ∧
    (compare a b < 0 ↔ Nat.ofDigits B a < Nat.ofDigits B b) := by
  induction a generalizing b with
  | nil =>
    cases b with
    | nil => simp [compare]
    | cons _ _ => simp at h
  | cons x a ih =>
    cases b with
    | nil => simp at h
    | cons y b =>
      have hx := ha x List.mem_cons_self
      have hy := hb y List.mem_cons_self
      obtain ⟨i1, i2⟩ := ih b (by simpa using h) (fun c hc => ha c (List.mem_cons_of_mem _ hc))
        (fun c hc => hb c (List.mem_cons_of_mem _ hc))
      rw [compare_cons]
      simp only [Nat.ofDigits_cons]
      generalize Nat.ofDigits B a = A at *
      generalize Nat.ofDigits B b = C at *
      generalize compare a b = k at *
      have hs1 : ((x : Int) - y).sign ≤ 1 := by
        rcases Int.sign_trichotomy ((x : Int) - y) with h | h | h <;> rw [h] <;> norm_num
      have hs2 : -1 ≤ ((x : Int) - y).sign := by
        rcases Int.sign_trichotomy ((x : Int) - y) with h | h | h <;> rw [h] <;> norm_num
      have hp : 0 < ((x : Int) - y).sign ↔ y < x := by rw [Int.sign_pos_iff]; omega
      have hn : ((x : Int) - y).sign < 0 ↔ x < y := by rw [Int.sign_neg_iff]; omega
      generalize ((x : Int) - y).sign = s at *
      have mono : ∀ u v : Nat, u < v → B * u + B ≤ B * v := by
        intro u v huv
        calc B * u + B = B * (u + 1) := by ring
          _ ≤ B * v := Nat.mul_le_mul_left _ huv
      rcases Nat.lt_trichotomy A C with h1 | h1 | h1
      · have := mono _ _ h1
        have := i2.2 h1
        constructor <;> constructor <;> intro h <;> omega
      · subst h1
        have : k = 0 := by
          rcases Int.lt_trichotomy k 0 with h | h | h
          · have := i2.1 h; omega
          · exact h
          · have := i1.1 h; omega
        constructor <;> constructor <;> intro h <;> omega
      · have := mono _ _ h1
        have := i1.2 h1
        constructor <;> constructor <;> intro h <;> omega

theorem compare_nonneg {B n : Nat} {a b : List Nat} {x y : Nat} (ha : Rep B n a x) (hb : Rep B n b y) :
    0 ≤ compare a b ↔ y ≤ x := by
  have h := (compare_sign B a b (ha.len.trans hb.len.symm) ha.lt hb.lt).2
  rw [ha.val, hb.val] at h
  constructor
  · intro h1
    by_contra hc
    have := h.2 (by omega)
    omega
  · intro h1
    by_contra hc
    have := h.1 (by omega)
    omega

/-! ## Addition -/

theorem map_mod_id (m : Nat) (l : List Nat) (h : ∀ v ∈ l, v < m) : l.map (· % m) = l := by
  conv_rhs => rw [← List.map_id l]
  exact List.map_congr_left fun v hv => Nat.mod_eq_of_lt (h v hv)

theorem mem_zipWith_add (a b : List Nat) (x y v : Nat) (ha : ∀ c ∈ a, c < x) (hb : ∀ c ∈ b, c < y)
    (hv : v ∈ List.zipWith (· + ·) a b) : v < x + y - 1 := by
  obtain ⟨i, hi, rfl⟩ := List.getElem_of_mem hv
  rw [List.getElem_zipWith]
  have := ha _ (List.getElem_mem (l := a) (n := i) (by simp at hi; omega))
  have := hb _ (List.getElem_mem (l := b) (n := i) (by simp at hi; omega))
  omega

theorem zipWith_add_mod (w x y : Nat) (a b : List Nat) (ha : ∀ c ∈ a, c < x) (hb : ∀ c ∈ b, c < y)
    (h : x + y ≤ w + 1) : List.zipWith (fun x y => (x + y) % w) a b = List.zipWith (· + ·) a b := by
  apply List.ext_getElem
  · simp
  intro i h1 h2
  simp only [List.getElem_zipWith]
  have := ha _ (List.getElem_mem (l := a) (n := i) (by simp at h1; omega))
  have := hb _ (List.getElem_mem (l := b) (n := i) (by simp at h1; omega))
  exact Nat.mod_eq_of_lt (by omega)

theorem Rep.map_mod {B n x : Nat} {l : List Nat} (h : Rep B n l x) : Rep B n (l.map (· % B)) x := by
  rw [map_mod_id _ _ h.lt]; exact h

theorem add2_rep (n : Nat) (a b : List Nat) (x y : Nat) (hn : 2 ≤ n) (ha : Rep (2 ^ 16) n a x)
    (hb : Rep (2 ^ 16) n b y) (h : x + y < (2 ^ 16) ^ n) : Rep (2 ^ 16) n (add2 a b) (x + y) := by
  unfold add2
  rw [zipWith_add_mod (2 ^ 32) (2 ^ 16) (2 ^ 16) a b ha.lt hb.lt (by norm_num)]
  have hlen : (List.zipWith (· + ·) a b).length = n := by simp [ha.len, hb.len]
  have hval : Nat.ofDigits (2 ^ 16) (List.zipWith (· + ·) a b) = x + y := by
    rw [ofDigits_zipWith_add _ _ _ (ha.len.trans hb.len.symm), ha.val, hb.val]
  have := carryLoop_rep 16 le_rfl (List.zipWith (· + ·) a b)
    (fun v hv => lt_of_lt_of_le (mem_zipWith_add a b _ _ v ha.lt hb.lt hv) (by norm_num))
    (by omega) (by rw [hlen, hval]; exact h)
  rw [hlen, hval] at this
  exact this.map_mod

theorem add3_rep (n : Nat) (a b d : List Nat) (x y z : Nat) (hn : 2 ≤ n) (ha : Rep (2 ^ 16) n a x)
    (hb : Rep (2 ^ 16) n b y) (hd : Rep (2 ^ 16) n d z) (h : x + y + z < (2 ^ 16) ^ n) :
    Rep (2 ^ 16) n (add3 a b d) (x + y + z) := by
  unfold add3
  rw [zipWith_add_mod (2 ^ 32) (2 ^ 16) (2 ^ 16) a b ha.lt hb.lt (by norm_num)]
  have h1 : ∀ v ∈ List.zipWith (· + ·) a b, v < 2 ^ 17 := fun v hv =>
    lt_of_lt_of_le (mem_zipWith_add a b _ _ v ha.lt hb.lt hv) (by norm_num)
  rw [zipWith_add_mod (2 ^ 32) (2 ^ 17) (2 ^ 16) _ d h1 hd.lt (by norm_num)]
  have hlen' : (List.zipWith (· + ·) a b).length = n := by simp [ha.len, hb.len]
  have hlen : (List.zipWith (· + ·) (List.zipWith (· + ·) a b) d).length = n := by simp [ha.len, hb.len, hd.len]
  have hval : Nat.ofDigits (2 ^ 16) (List.zipWith (· + ·) (List.zipWith (· + ·) a b) d) = x + y + z := by
    rw [ofDigits_zipWith_add _ _ _ (hlen'.trans hd.len.symm),
      ofDigits_zipWith_add _ _ _ (ha.len.trans hb.len.symm), ha.val, hb.val, hd.val]
  have := carryLoop_rep 16 le_rfl (List.zipWith (· + ·) (List.zipWith (· + ·) a b) d)
    (fun v hv => lt_of_lt_of_le (mem_zipWith_add _ d _ _ v h1 hd.lt hv) (by norm_num))
    (by omega) (by rw [hlen, hval]; exact h)
  rw [hlen, hval] at this
  exact this.map_mod

/-! ## Subtraction -/

theorem ofDigits_borrow (B n : Nat) (hn : 2 ≤ n) :
    Nat.ofDigits B ([0] ++ List.replicate (n - 2) 1 ++ [0]) + B ^ (n - 1)
      = Nat.ofDigits B (List.replicate (n - 1) B ++ [0]) := by
  obtain ⟨m, rfl⟩ : ∃ m, n = m + 2 := ⟨n - 2, by omega⟩
  have e1 : m + 2 - 2 = m := rfl
  have e2 : m + 2 - 1 = m + 1 := rfl
  rw [e1, e2]
  have : ∀ k, Nat.ofDigits B (List.replicate k B) = B * Nat.ofDigits B (List.replicate k 1) := by
    intro k
    induction k with
    | zero => simp
    | succ k ih => simp only [List.replicate_succ, Nat.ofDigits_cons, ih]; ring
  rw [Nat.ofDigits_append, Nat.ofDigits_append, Nat.ofDigits_append, this, List.replicate_succ', Nat.ofDigits_append]
  simp
  ring

theorem modify_concat (l : List Nat) (t : Nat) (f : Nat → Nat) : (l ++ [t]).modify l.length f = l ++ [f t] := by
  induction l with
  | nil => simp
  | cons x l ih => simp [ih]

theorem Rep.concat {B n : Nat} {l : List Nat} {x : Nat} (hB : 1 < B) (h : Rep B (n + 1) l x) :
    ∃ l0, l = l0 ++ [x / B ^ n] ∧ Rep B n l0 (x % B ^ n) := by
  rcases List.eq_nil_or_concat l with e | ⟨m, t, e⟩
  · have := h.len; rw [e] at this; simp at this
  rw [List.concat_eq_append] at e
  have hm : m.length = n := by
    have := h.len; rw [e] at this; simpa using this
  have hlt : ∀ c ∈ m, c < B := fun c hc => h.lt c (by rw [e]; simp [hc])
  have hb := Nat.ofDigits_lt_base_pow_length hB hlt
  have hv := h.val
  rw [e, Nat.ofDigits_append, Nat.ofDigits_singleton, hm] at hv
  rw [hm] at hb
  have hpos : 0 < B ^ n := by positivity
  refine ⟨m, ?_, hm, hlt, ?_⟩
  · rw [e, ← hv, Nat.add_mul_div_left _ _ hpos, Nat.div_eq_of_lt hb]; simp
  · rw [← hv, Nat.add_mul_mod_self_left, Nat.mod_eq_of_lt hb]

theorem Rep.append_one {B n : Nat} {l : List Nat} {x t : Nat} (h : Rep B n l x) (ht : t < B) :
    Rep B (n + 1) (l ++ [t]) (x + B ^ n * t) := by
  refine ⟨by simp [h.len], ?_, ?_⟩
  · intro c hc
    rcases List.mem_append.1 hc with h1 | h1
    · exact h.lt c h1
    · rw [List.mem_singleton.1 h1]; exact ht
  · rw [Nat.ofDigits_append, Nat.ofDigits_singleton, h.val, h.len]

theorem sub_wrap (W x y : Nat) (h : y ≤ x) (hx : x < W) : (x + W - y) % W = x - y := by
  have : x + W - y = (x - y) + W := by omega
  rw [this, Nat.add_mod_right, Nat.mod_eq_of_lt (by omega)]

theorem sub32_eq (x y : Nat) (h : y ≤ x) (hx : x < 2 ^ 32) : sub32 x y = x - y := sub_wrap _ _ _ h hx

theorem sub32_top (t : Nat) (ht : t + 1 < 2 ^ 16) : sub32 (t + 1) 1 % 2 ^ 16 = t := by
  rw [sub32_eq _ _ (by omega) (lt_trans ht (by norm_num)), Nat.add_sub_cancel, Nat.mod_eq_of_lt (by omega)]

theorem sub32_zero : sub32 0 1 % 2 ^ 16 = 65535 := by norm_num [sub32]

theorem modify_top (B n t : Nat) (l0 : List Nat) (f : Nat → Nat) (hlen : l0.length = n)
    (h0 : ∀ c ∈ l0, c < B) :
    ((l0 ++ [t]).modify n f).map (· % B) = l0 ++ [f t % B] := by
  subst hlen
  rw [modify_concat, List.map_append, map_mod_id _ _ h0]
  rfl

/-- The last step of `sub_2u16`: decrement the top chunk modulo `2^16`. -/
theorem top_dec (n : Nat) (l : List Nat) (x : Nat) (h : Rep (2 ^ 16) (n + 1) l x) :
    Rep (2 ^ 16) (n + 1) ((l.modify n fun v => sub32 v 1).map (· % 2 ^ 16))
      (if (2 ^ 16) ^ n ≤ x then x - (2 ^ 16) ^ n else x + 65535 * (2 ^ 16) ^ n) := by
  have hbd := h.bound (by norm_num)
  obtain ⟨l0, e, h0⟩ := h.concat (by norm_num)
  have hpos : 0 < (2 ^ 16) ^ n := by positivity
  have hdm := Nat.mod_add_div x ((2 ^ 16) ^ n)
  have ht : x / (2 ^ 16) ^ n < 2 ^ 16 := by
    apply Nat.div_lt_of_lt_mul
    rw [pow_succ] at hbd; exact hbd
  rw [e, modify_top (2 ^ 16) n _ l0 _ h0.len h0.lt]
  have key := h0.append_one (t := sub32 (x / (2 ^ 16) ^ n) 1 % 2 ^ 16) (Nat.mod_lt _ (by norm_num))
  suffices hs : (if (2 ^ 16) ^ n ≤ x then x - (2 ^ 16) ^ n else x + 65535 * (2 ^ 16) ^ n)
      = x % (2 ^ 16) ^ n + (2 ^ 16) ^ n * (sub32 (x / (2 ^ 16) ^ n) 1 % 2 ^ 16) by
    rw [hs]; exact key
  clear key
  by_cases hc : (2 ^ 16) ^ n ≤ x
  · rw [if_pos hc]
    have h1 : 1 ≤ x / (2 ^ 16) ^ n := Nat.div_pos hc hpos
    obtain ⟨t, htt⟩ : ∃ t, x / (2 ^ 16) ^ n = t + 1 := ⟨x / (2 ^ 16) ^ n - 1, by omega⟩
    rw [htt] at hdm ht ⊢
    rw [sub32_top t ht]
    generalize (2 ^ 16) ^ n = Q at *
    have : Q * (t + 1) = Q * t + Q := by ring
    omega
  · rw [if_neg hc]
    have h1 : x / (2 ^ 16) ^ n = 0 := Nat.div_eq_of_lt (by omega)
    have h2 : x % (2 ^ 16) ^ n = x := Nat.mod_eq_of_lt (by omega)
    rw [h1, h2, sub32_zero, Nat.mul_comm]

/-- The array handed to the carry loop by `sub_2u16` represents `a - b + 2^(16 (n-1))`. -/
theorem sub2_inner (n : Nat) (hn : 2 ≤ n) (a b : List Nat) (y : Nat)
    (ha : a.length = n) (hlt : ∀ c ∈ a, c < 2 ^ 17) (hb : Rep (2 ^ 16) n b y)
    (htop : b.getD (n - 1) 0 ≤ a.getD (n - 1) 0) :
    ∃ d, sub2 n a b = ((carryLoop 16 d).modify (n - 1) fun v => sub32 v 1).map (· % 2 ^ 16) ∧ d.length = n ∧
      (∀ v ∈ d, v < 2 ^ (16 + 16)) ∧ Nat.ofDigits (2 ^ 16) d + y = Nat.ofDigits (2 ^ 16) a + (2 ^ 16) ^ (n - 1) := by
  obtain ⟨H, hH⟩ : ∃ H, H = [0] ++ List.replicate (n - 2) 1 ++ [0] := ⟨_, rfl⟩
  obtain ⟨L, hL⟩ : ∃ L, L = List.replicate (n - 1) (2 ^ 16) ++ [0] := ⟨_, rfl⟩
  have hHlen : H.length = n := by rw [hH]; simp; omega
  have hLlen : L.length = n := by rw [hL]; simp; omega
  have hLi : ∀ i (hi : i < L.length), L[i] = if i < n - 1 then 2 ^ 16 else 0 := by
    intro i hi
    subst hL
    by_cases h : i < n - 1
    · rw [if_pos h, List.getElem_append_left (by simpa using h), List.getElem_replicate]
    · rw [if_neg h, List.getElem_append_right (by simpa using h)]; simp
  have hHi : ∀ i (hi : i < H.length), H[i] ≤ 1 ∧ (i = n - 1 → H[i] = 0) := by
    intro i hi
    constructor
    · have hmem : ∀ v ∈ H, v ≤ 1 := by
        intro v hv
        rw [hH] at hv
        simp only [List.mem_append, List.mem_singleton, List.mem_replicate] at hv
        omega
      exact hmem _ (List.getElem_mem hi)
    · intro h
      subst hH
      rw [List.getElem_append_right (by simp; omega)]; simp
  refine ⟨List.zipWith sub32 (List.zipWith sub32 (List.zipWith (fun x y => (x + y) % 2 ^ 32) a L) b) H, ?_, ?_, ?_, ?_⟩
  · simp only [sub2, hH, hL]
  · simp [ha, hb.len, hHlen, hLlen]
  · intro v hv
    obtain ⟨i, hi, rfl⟩ := List.getElem_of_mem hv
    rw [List.getElem_zipWith]
    exact Nat.mod_lt _ (by norm_num)
  · have key : List.zipWith (· + ·)
        (List.zipWith sub32 (List.zipWith sub32 (List.zipWith (fun x y => (x + y) % 2 ^ 32) a L) b) H)
        (List.zipWith (· + ·) b H) = List.zipWith (· + ·) a L := by
      apply List.ext_getElem
      · simp [ha, hb.len, hHlen, hLlen]
      intro i h1 h2
      simp only [List.length_zipWith, ha, hb.len, hHlen, hLlen] at h1 h2
      simp only [List.getElem_zipWith]
      have hai := hlt _ (List.getElem_mem (l := a) (n := i) (by omega))
      have hbi := hb.lt _ (List.getElem_mem (l := b) (n := i) (by rw [hb.len]; omega))
      have hLv := hLi i (by omega)
      have hHv := hHi i (by omega)
      have hmod : (a[i]'(by omega) + L[i]'(by omega)) % 2 ^ 32 = a[i]'(by omega) + L[i]'(by omega) := by
        apply Nat.mod_eq_of_lt
        rw [hLv]
        split <;> omega
      rw [hmod]
      have hs : ∀ u v w : Nat, v + w ≤ u → u < 2 ^ 18 → sub32 (sub32 u v) w + (v + w) = u := by
        intro u v w h1 h2
        have h3 : (2 : Nat) ^ 18 ≤ 2 ^ 32 := by norm_num
        rw [sub32_eq u v (by omega) (lt_of_lt_of_le h2 h3), sub32_eq _ w (by omega) (by omega)]
        omega
      by_cases hc : i < n - 1
      · rw [if_pos hc] at hLv
        apply hs <;> omega
      · rw [if_neg hc] at hLv
        have hi : i = n - 1 := by omega
        have hz := hHv.2 hi
        subst hi
        rw [List.getD_eq_getElem _ _ (by rw [hb.len]; omega), List.getD_eq_getElem _ _ (by omega)] at htop
        apply hs <;> omega
    have hv := congrArg (Nat.ofDigits (2 ^ 16)) key
    rw [ofDigits_zipWith_add _ _ _ (by simp [ha, hb.len, hHlen, hLlen]),
      ofDigits_zipWith_add _ _ _ (by simp [hb.len, hHlen]), ofDigits_zipWith_add _ _ _ (by omega), hb.val] at hv
    have hbor := ofDigits_borrow (2 ^ 16) n hn
    rw [← hH, ← hL] at hbor
    omega

theorem sub2_value (n : Nat) (hn : 2 ≤ n) (a b : List Nat) (x y : Nat)
    (ha : a.length = n) (hlt : ∀ c ∈ a, c < 2 ^ 17) (hx : Nat.ofDigits (2 ^ 16) a = x) (hb : Rep (2 ^ 16) n b y)
    (htop : b.getD (n - 1) 0 ≤ a.getD (n - 1) 0) (hxy : y ≤ x) (hr : x - y < (2 ^ 16) ^ n - (2 ^ 16) ^ (n - 1)) :
    Rep (2 ^ 16) n (sub2 n a b) (x - y) := by
  obtain ⟨d, e, hlen, hd, hv⟩ := sub2_inner n hn a b y ha hlt hb htop
  rw [hx] at hv
  obtain ⟨m, rfl⟩ : ∃ m, n = m + 1 := ⟨n - 1, by omega⟩
  have e1 : m + 1 - 1 = m := rfl
  rw [e1] at e hv hr
  have hle : (2 ^ 16) ^ m ≤ (2 ^ 16) ^ (m + 1) := Nat.pow_le_pow_right (by norm_num) (by omega)
  have hval : Nat.ofDigits (2 ^ 16) d = x - y + (2 ^ 16) ^ m := by omega
  have h1 := carryLoop_rep 16 le_rfl d hd (by omega) (by rw [hlen, hval]; omega)
  rw [hlen, hval] at h1
  have h2 := top_dec m _ _ h1
  rw [if_pos (by omega)] at h2
  rw [e]
  convert h2 using 1
  omega

/-- When the difference has top chunk `0xFFFF` the end-around carry makes the result one too large. -/
theorem sub2_wrong (n : Nat) (hn : 2 ≤ n) (a b : List Nat) (x y : Nat)
    (ha : a.length = n) (hlt : ∀ c ∈ a, c < 2 ^ 17) (hx : Nat.ofDigits (2 ^ 16) a = x) (hb : Rep (2 ^ 16) n b y)
    (htop : b.getD (n - 1) 0 ≤ a.getD (n - 1) 0) (hxy : y ≤ x)
    (hr : (2 ^ 16) ^ n - (2 ^ 16) ^ (n - 1) ≤ x - y) (hr2 : x - y < (2 ^ 16) ^ n) :
    Rep (2 ^ 16) n (sub2 n a b) ((x - y + 1) % (2 ^ 16) ^ n) := by
  obtain ⟨d, e, hlen, hd, hv⟩ := sub2_inner n hn a b y ha hlt hb htop
  rw [hx] at hv
  obtain ⟨m, rfl⟩ : ∃ m, n = m + 1 := ⟨n - 1, by omega⟩
  have e1 : m + 1 - 1 = m := rfl
  rw [e1] at e hv hr
  have hpos : 1 < (2 ^ 16) ^ m := Nat.one_lt_pow (by omega) (by norm_num)
  have hval : Nat.ofDigits (2 ^ 16) d = x - y + (2 ^ 16) ^ m := by omega
  have hp : (2 ^ 16) ^ (m + 1) = 65536 * (2 ^ 16) ^ m := by rw [pow_succ]; norm_num; ring
  have h1 := carryLoop_wrap 16 le_rfl d hd (by omega) (by rw [hlen, hval]; omega) (by rw [hlen, hval]; omega)
  rw [hlen, hval] at h1
  have h2 := top_dec m _ _ h1
  rw [e]
  convert h2 using 1
  rw [hp] at hr hr2 ⊢
  clear h1 h2 hv hval e htop hp
  generalize (2 ^ 16) ^ m = Q at *
  rcases Nat.lt_or_ge (x - y + 1) (65536 * Q) with hc | hc
  · rw [if_neg (by omega), Nat.mod_eq_of_lt hc]; norm_num; omega
  · have : x - y + 1 = 65536 * Q := by omega
    rw [if_pos (by omega), this, Nat.mod_self]; omega

theorem getD_top {B n : Nat} {l : List Nat} {x : Nat} (hB : 1 < B) (hn : 1 ≤ n) (h : Rep B n l x) :
    l.getD (n - 1) 0 = x / B ^ (n - 1) := by
  obtain ⟨m, rfl⟩ : ∃ m, n = m + 1 := ⟨n - 1, by omega⟩
  obtain ⟨l0, e, h0⟩ := h.concat hB
  have e1 : m + 1 - 1 = m := rfl
  rw [e1, e, List.getD_append_right _ _ _ _ (by rw [h0.len]), h0.len]
  simp

theorem sub2_rep (n : Nat) (hn : 2 ≤ n) (a b : List Nat) (x y : Nat) (ha : Rep (2 ^ 16) n a x)
    (hb : Rep (2 ^ 16) n b y) (hxy : y ≤ x) (hr : x - y < (2 ^ 16) ^ n - (2 ^ 16) ^ (n - 1)) :
    Rep (2 ^ 16) n (sub2 n a b) (x - y) := by
  refine sub2_value n hn a b x y ha.len (fun c hc => lt_trans (ha.lt c hc) (by norm_num)) ha.val hb ?_ hxy hr
  rw [getD_top (by norm_num) (by omega) ha, getD_top (by norm_num) (by omega) hb]
  exact Nat.div_le_div_right hxy

theorem condSubMod_rep (n : Nat) (hn : 2 ≤ n) (m a : List Nat) (p x : Nat) (hm : Rep (2 ^ 16) n m p)
    (ha : Rep (2 ^ 16) n a x) (hr : x < (2 ^ 16) ^ n - (2 ^ 16) ^ (n - 1) + p) :
    Rep (2 ^ 16) n (condSubMod n m a) (if p ≤ x then x - p else x) := by
  unfold condSubMod
  have hc := compare_nonneg ha hm
  by_cases h : p ≤ x
  · rw [if_pos (hc.2 h), if_pos h]
    exact sub2_rep n hn a m x p ha hm h (by omega)
  · rw [if_neg (fun hh => h (hc.1 hh)), if_neg h]
    exact ha

theorem condSub_rep (n : Nat) (hn : 2 ≤ n) (m a b : List Nat) (p x y : Nat) (hm : Rep (2 ^ 16) n m p)
    (ha : Rep (2 ^ 16) n a x) (hb : Rep (2 ^ 16) n b y) (hy : y ≤ p)
    (h1 : y ≤ x → x - y < (2 ^ 16) ^ n - (2 ^ 16) ^ (n - 1))
    (h2 : x < y → x + p - y < (2 ^ 16) ^ n - (2 ^ 16) ^ (n - 1)) :
    Rep (2 ^ 16) n (condSub n m a b) (if y ≤ x then x - y else x + p - y) := by
  unfold condSub
  have hc := compare_nonneg ha hb
  dsimp only
  by_cases h : y ≤ x
  · rw [if_pos (hc.2 h), if_pos h]
    exact sub2_rep n hn a b x y ha hb h (h1 h)
  · rw [if_neg (fun hh => h (hc.1 hh)), if_neg h,
      zipWith_add_mod (2 ^ 32) (2 ^ 16) (2 ^ 16) a m ha.lt hm.lt (by norm_num)]
    have hlen : (List.zipWith (· + ·) a m).length = n := by simp [ha.len, hm.len]
    refine sub2_value n hn _ b (x + p) y hlen
      (fun v hv => lt_of_lt_of_le (mem_zipWith_add a m _ _ v ha.lt hm.lt hv) (by norm_num)) ?_ hb ?_ (by omega)
      (h2 (by omega))
    · rw [ofDigits_zipWith_add _ _ _ (ha.len.trans hm.len.symm), ha.val, hm.val]
    · have e : (List.zipWith (· + ·) a m).getD (n - 1) 0 = a.getD (n - 1) 0 + m.getD (n - 1) 0 := by
        rw [List.getD_eq_getElem _ _ (by omega), List.getD_eq_getElem _ _ (by rw [ha.len]; omega),
          List.getD_eq_getElem _ _ (by rw [hm.len]; omega), List.getElem_zipWith]
      rw [e, getD_top (by norm_num) (by omega) hm, getD_top (by norm_num) (by omega) hb]
      have := Nat.div_le_div_right (c := (2 ^ 16) ^ (n - 1)) hy
      omega

end Verif.EcChunks
