import Verif.Model.EcField
import Mathlib.Data.Nat.Digits.Lemmas
import Mathlib.Algebra.BigOperators.Intervals

/-!
# Lemmas about chunked integers
-/

namespace Verif.EcChunks

/-! ## Conversion -/

theorem elements_eq (base x : Nat) (hb : 0 < base) : elements base x = Nat.digits (2 ^ base) x := by
  induction x using Nat.strongRecOn with
  | ind x ih =>
    rw [elements]
    have h1 : 1 < 2 ^ base := Nat.one_lt_two_pow (by omega)
    by_cases h : 0 < x ∧ 0 < base
    · rw [dif_pos h, Nat.digits_def' h1 h.1, Nat.shiftRight_eq_div_pow,
        ih _ (Nat.div_lt_self h.1 h1), Nat.one_shiftLeft, Nat.and_two_pow_sub_one_eq_mod]
    · have : x = 0 := by omega
      rw [dif_neg h, this]; simp

theorem arrayToIntFrom_eq (base i acc : Nat) (l : List Nat) (hacc : acc < 2 ^ (i * base))
    (hl : ∀ c ∈ l, c < 2 ^ base) :
    arrayToIntFrom base i acc l = acc + 2 ^ (i * base) * Nat.ofDigits (2 ^ base) l := by
  induction l generalizing i acc with
  | nil => simp [arrayToIntFrom, Nat.ofDigits]
  | cons c l ih =>
    rw [arrayToIntFrom]
    have h1 : acc ||| c <<< (i * base) = acc + 2 ^ (i * base) * c := by
      rw [Nat.or_comm, ← Nat.shiftLeft_add_eq_or_of_lt hacc, Nat.shiftLeft_eq]; ring
    have hc := hl c List.mem_cons_self
    have hp : 2 ^ ((i + 1) * base) = 2 ^ (i * base) * 2 ^ base := by rw [← pow_add]; ring_nf
    rw [h1, ih _ _ ?_ (fun d hd => hl d (List.mem_cons_of_mem _ hd)), Nat.ofDigits_cons, hp]
    · push_cast; ring
    · rw [hp]
      calc acc + 2 ^ (i * base) * c < 2 ^ (i * base) + 2 ^ (i * base) * c := by omega
        _ = 2 ^ (i * base) * (c + 1) := by ring
        _ ≤ _ := Nat.mul_le_mul_left _ hc

theorem arrayToInt_eq (base : Nat) (l : List Nat) (hl : ∀ c ∈ l, c < 2 ^ base) :
    arrayToInt base l = Nat.ofDigits (2 ^ base) l := by
  rw [arrayToInt, arrayToIntFrom_eq _ _ _ _ (by simp) hl]; simp

/-- `l` is the canonical array of `n` chunks below `B` for the integer `x`. -/
structure Rep (B n : Nat) (l : List Nat) (x : Nat) : Prop where
  len : l.length = n
  lt : ∀ c ∈ l, c < B
  val : Nat.ofDigits B l = x

theorem Rep.bound {B n : Nat} {l : List Nat} {x : Nat} (hB : 1 < B) (h : Rep B n l x) : x < B ^ n := by
  rw [← h.val, ← h.len]
  exact Nat.ofDigits_lt_base_pow_length hB h.lt

theorem Rep.unique {B n : Nat} {l l' : List Nat} {x : Nat} (hB : 1 < B) (h : Rep B n l x) (h' : Rep B n l' x) :
    l = l' :=
  Nat.ofDigits_inj_of_len_eq hB (h.len.trans h'.len.symm) h.lt h'.lt (h.val.trans h'.val.symm)

theorem digits_len_le (b x n : Nat) (hb : 1 < b) : (Nat.digits b x).length ≤ n ↔ x < b ^ n :=
  Nat.digits_length_le_iff hb x

theorem ofDigits_replicate_zero (B k : Nat) : Nat.ofDigits B (List.replicate k 0) = 0 := by
  induction k with
  | zero => rfl
  | succ k ih => rw [List.replicate_succ, Nat.ofDigits_cons, ih]; simp

theorem intToArray_ok (base n x : Nat) (hb : 0 < base) (hx : x < 2 ^ (base * n)) :
    ∃ l, intToArray base (some n) x = .ok l ∧ Rep (2 ^ base) n l x := by
  have h1 : 1 < 2 ^ base := Nat.one_lt_two_pow (by omega)
  have hlen : (elements base x).length ≤ n := by
    rw [elements_eq _ _ hb]
    exact (digits_len_le _ _ _ h1).2 (by rwa [← pow_mul])
  refine ⟨elements base x ++ List.replicate (n - (elements base x).length) 0, ?_, ?_, ?_, ?_⟩
  · simp only [intToArray, if_pos hlen, List.take_of_length_le hlen]
  · simp; omega
  · intro c hc
    rcases List.mem_append.1 hc with h | h
    · rw [elements_eq _ _ hb] at h
      exact Nat.digits_lt_base h1 h
    · rw [List.eq_of_mem_replicate h]; omega
  · rw [Nat.ofDigits_append, ofDigits_replicate_zero, elements_eq _ _ hb, Nat.ofDigits_digits]; simp

theorem constArray_rep (base n x : Nat) (hb : 0 < base) (hx : x < 2 ^ (base * n)) :
    Rep (2 ^ base) n (constArray base n x) x := by
  obtain ⟨l, h, hr⟩ := intToArray_ok base n x hb hx
  rw [constArray, h]
  exact hr

/-! ## Values of lists -/

theorem ofDigits_zipWith_add (B : Nat) (a b : List Nat) (h : a.length = b.length) :
    Nat.ofDigits B (List.zipWith (· + ·) a b) = Nat.ofDigits B a + Nat.ofDigits B b := by
  induction a generalizing b with
  | nil => cases b with
    | nil => simp
    | cons _ _ => simp at h
  | cons x a ih =>
    cases b with
    | nil => simp at h
    | cons y b =>
      simp only [List.zipWith_cons_cons, Nat.ofDigits_cons, ih b (by simpa using h)]
      ring

theorem ofDigits_roll (B : Nat) (l : List Nat) (x : Nat) :
    Nat.ofDigits B (roll (l ++ [x])) + x * B ^ (l.length + 1) = B * Nat.ofDigits B (l ++ [x]) + x := by
  rw [roll_concat, Nat.ofDigits_cons, Nat.ofDigits_append, Nat.ofDigits_singleton, pow_succ]
  ring

theorem ofDigits_low_high (s : Nat) (l : List Nat) :
    Nat.ofDigits (2 ^ s) (l.map fun v => v % 2 ^ s) + 2 ^ s * Nat.ofDigits (2 ^ s) (l.map fun v => v / 2 ^ s)
      = Nat.ofDigits (2 ^ s) l := by
  induction l with
  | nil => simp
  | cons v l ih =>
    simp only [List.map_cons, Nat.ofDigits_cons]
    rw [← ih]
    have := Nat.mod_add_div v (2 ^ s)
    nlinarith [this]

theorem ofDigits_eq_zero_iff_sum (B : Nat) (hB : 0 < B) (l : List Nat) : Nat.ofDigits B l = 0 ↔ l.sum = 0 := by
  induction l with
  | nil => simp
  | cons v l ih =>
    simp only [Nat.ofDigits_cons, List.sum_cons]
    constructor
    · intro h
      have h1 : v = 0 := by omega
      have h2 : B * Nat.ofDigits B l = 0 := by omega
      have := ih.1 ((Nat.mul_eq_zero.1 h2).resolve_left (by omega))
      omega
    · intro h
      have := ih.2 (by omega)
      rw [this]; simp; omega

/-! ## Carry propagation -/

/-- `carryStep` in arithmetic form, when no lane overflows. -/
theorem carryStep_eq (s : Nat) (hs : 16 ≤ s) (l : List Nat) (hl : ∀ v ∈ l, v < 2 ^ (s + 16)) (hn : 2 ≤ l.length) :
    carryStep s l = List.zipWith (· + ·) (l.map fun v => v % 2 ^ s) (roll (l.map fun v => v / 2 ^ s)) := by
  unfold carryStep
  have e1 : (l.map fun v => (v >>> s) % 2 ^ 16) = l.map fun v => v / 2 ^ s := by
    apply List.map_congr_left
    intro v hv
    rw [Nat.shiftRight_eq_div_pow]
    apply Nat.mod_eq_of_lt
    apply Nat.div_lt_of_lt_mul
    rw [← pow_add]; exact hl v hv
  have e2 : (l.map fun v => v &&& (2 ^ s - 1)) = l.map fun v => v % 2 ^ s := by
    apply List.map_congr_left
    intro v _
    exact Nat.and_two_pow_sub_one_eq_mod _ _
  dsimp only
  rw [e1, e2, rollMul_eq _ (by simpa using hn)]
  have hroll : ∀ v ∈ roll (l.map fun v => v / 2 ^ s), v < 2 ^ 16 := by
    intro v hv
    have : v ∈ l.map fun v => v / 2 ^ s := by
      rcases List.eq_nil_or_concat (l.map fun v => v / 2 ^ s) with e | ⟨m, x, e⟩
      · rw [e] at hv; simp [roll] at hv
      · rw [e, List.concat_eq_append, roll_concat] at hv
        rw [e, List.concat_eq_append]
        simp at hv ⊢; tauto
    obtain ⟨w, hw, rfl⟩ := List.mem_map.1 this
    apply Nat.div_lt_of_lt_mul
    rw [← pow_add]; exact hl w hw
  have e3 : (roll (l.map fun v => v / 2 ^ s)).map (· % 2 ^ 16) = roll (l.map fun v => v / 2 ^ s) := by
    conv_rhs => rw [← List.map_id (roll (l.map fun v => v / 2 ^ s))]
    apply List.map_congr_left
    intro v hv
    exact Nat.mod_eq_of_lt (hroll v hv)
  rw [e3]
  apply List.ext_getElem
  · simp
  intro i h1 h2
  simp only [List.getElem_zipWith]
  apply Nat.mod_eq_of_lt
  have a1 : (l.map fun v => v % 2 ^ s)[i]'(by simp at h1 ⊢; omega) < 2 ^ s := by
    simp only [List.getElem_map]; exact Nat.mod_lt _ (by positivity)
  have a2 := hroll _ (List.getElem_mem (l := roll (l.map fun v => v / 2 ^ s)) (n := i) (by simp at h1; omega))
  have a3 : 2 ^ 16 ≤ 2 ^ s := Nat.pow_le_pow_right (by norm_num) hs
  have a4 : 2 ^ s + 2 ^ s = 2 ^ (s + 1) := by rw [pow_succ]; ring
  have a5 : 2 ^ (s + 1) ≤ 2 ^ (2 * s) := Nat.pow_le_pow_right (by norm_num) (by omega)
  omega

theorem carryStep_length (s : Nat) (l : List Nat) : (carryStep s l).length = l.length := by
  simp [carryStep, rollMul_length]

theorem carryStep_lt (s : Nat) (hs : 16 ≤ s) (l : List Nat) (v : Nat) (hv : v ∈ carryStep s l) :
    v < 2 ^ (s + 16) := by
  unfold carryStep at hv
  obtain ⟨i, hi, rfl⟩ := List.getElem_of_mem hv
  simp only [List.getElem_zipWith, List.getElem_map]
  refine lt_of_le_of_lt (Nat.mod_le _ _) ?_
  rw [Nat.and_two_pow_sub_one_eq_mod]
  have a1 := Nat.mod_lt (l[i]'(by simp at hi; omega)) (show 0 < 2 ^ s by positivity)
  have a3 : 2 ^ 16 ≤ 2 ^ s := Nat.pow_le_pow_right (by norm_num) hs
  have a4 : 2 ^ s + 2 ^ s = 2 ^ (s + 1) := by rw [pow_succ]; ring
  have a5 : 2 ^ (s + 1) ≤ 2 ^ (s + 16) := Nat.pow_le_pow_right (by norm_num) (by omega)
  have a6 := Nat.mod_lt ((rollMul (List.map (fun v => v >>> s % 2 ^ 16) l))[i]'(by
    simp [rollMul_length] at hi ⊢; omega)) (show 0 < 2 ^ 16 by positivity)
  omega

/-- One round keeps the value, except that the carry out of the last chunk comes back at the first. -/
theorem carryStep_value (s : Nat) (hs : 16 ≤ s) (l : List Nat) (hl : ∀ v ∈ l, v < 2 ^ (s + 16))
    (hn : 2 ≤ l.length) :
    ∃ t, Nat.ofDigits (2 ^ s) (carryStep s l) + t * (2 ^ s) ^ l.length = Nat.ofDigits (2 ^ s) l + t := by
  rw [carryStep_eq s hs l hl hn, ofDigits_zipWith_add _ _ _ (by simp [roll_length])]
  rcases List.eq_nil_or_concat (l.map fun v => v / 2 ^ s) with e | ⟨m, x, e⟩
  · have := congrArg List.length e; simp at this; subst this; simp at hn
  · rw [List.concat_eq_append] at e
    refine ⟨x, ?_⟩
    have h1 := ofDigits_roll (2 ^ s) m x
    have h2 := ofDigits_low_high s l
    have h3 : m.length + 1 = l.length := by
      have := congrArg List.length e; simp at this; omega
    rw [e] at h2 ⊢
    rw [h3] at h1
    omega

theorem carryStep_pos (s : Nat) (hs : 16 ≤ s) (l : List Nat) (hl : ∀ v ∈ l, v < 2 ^ (s + 16))
    (hn : 2 ≤ l.length) (hp : 0 < l.sum) : 0 < (carryStep s l).sum := by
  rw [carryStep_eq s hs l hl hn]
  have hz : ∀ a b : List Nat, a.length = b.length → (List.zipWith (· + ·) a b).sum = a.sum + b.sum := by
    intro a
    induction a with
    | nil => intro b h; cases b with
      | nil => simp
      | cons _ _ => simp at h
    | cons x a ih =>
      intro b h
      cases b with
      | nil => simp at h
      | cons y b =>
        simp only [List.zipWith_cons_cons, List.sum_cons, ih b (by simpa using h)]; omega
  rw [hz _ _ (by simp [roll_length]), roll_sum]
  clear hl hn
  induction l with
  | nil => simp at hp
  | cons v l ih =>
    simp only [List.map_cons, List.sum_cons] at *
    have := Nat.mod_add_div v (2 ^ s)
    rcases Nat.eq_zero_or_pos v with h | h
    · subst h
      have := ih (by omega)
      simp; omega
    · rcases Nat.eq_zero_or_pos (v / 2 ^ s) with h2 | h2
      · rw [h2] at this; simp at this; omega
      · omega

theorem not_anyCarry (s : Nat) (l : List Nat) (h : ¬ anyCarry s l = true) (v : Nat) (hv : v ∈ l) : v < 2 ^ s := by
  by_contra hc
  apply h
  refine List.any_eq_true.2 ⟨v, hv, ?_⟩
  rw [Nat.shiftRight_eq_div_pow]
  have : 0 < v / 2 ^ s := Nat.div_pos (by omega) (by positivity)
  simp; omega

/-- The loop ends with chunks below `2^s`; the value is kept modulo `2^(s n) - 1`. -/
theorem carryLoop_spec (s : Nat) (hs : 16 ≤ s) (l : List Nat) (hl : ∀ v ∈ l, v < 2 ^ (s + 16))
    (hn : 2 ≤ l.length) :
    (carryLoop s l).length = l.length ∧ (∀ v ∈ carryLoop s l, v < 2 ^ s) ∧
    (∃ t, Nat.ofDigits (2 ^ s) (carryLoop s l) + t * (2 ^ s) ^ l.length = Nat.ofDigits (2 ^ s) l + t) ∧
    (0 < l.sum → 0 < (carryLoop s l).sum) := by
  induction hm : l.sum using Nat.strongRecOn generalizing l with
  | ind m ih =>
    rw [carryLoop]
    by_cases h : 0 < s ∧ anyCarry s l = true
    · rw [dif_pos h]
      have hlen := carryStep_length s l
      obtain ⟨h1, h2, ⟨t, h3⟩, h4⟩ := ih _ (hm ▸ carryStep_sum_lt s h.1 l h.2) (carryStep s l)
        (fun v hv => carryStep_lt s hs l v hv) (by omega) rfl
      obtain ⟨u, h5⟩ := carryStep_value s hs l hl hn
      refine ⟨by omega, h2, ⟨t + u, ?_⟩, fun hp => h4 (carryStep_pos s hs l hl hn (by omega))⟩
      rw [hlen] at h3
      rw [Nat.add_mul]
      omega
    · rw [dif_neg h]
      exact ⟨rfl, fun v hv => not_anyCarry s l (fun hc => h ⟨by omega, hc⟩) v hv, ⟨0, by simp⟩,
        fun hp => hm ▸ hp⟩

/-- When the integer fits, the loop returns its canonical chunks. -/
theorem carryLoop_rep (s : Nat) (hs : 16 ≤ s) (l : List Nat) (hl : ∀ v ∈ l, v < 2 ^ (s + 16))
    (hn : 2 ≤ l.length) (hx : Nat.ofDigits (2 ^ s) l < (2 ^ s) ^ l.length) :
    Rep (2 ^ s) l.length (carryLoop s l) (Nat.ofDigits (2 ^ s) l) := by
  obtain ⟨h1, h2, ⟨t, h3⟩, h4⟩ := carryLoop_spec s hs l hl hn
  refine ⟨h1, h2, ?_⟩
  have hp : 1 < (2 ^ s) ^ l.length := Nat.one_lt_pow (by omega) (Nat.one_lt_two_pow (by omega))
  generalize (2 ^ s) ^ l.length = Q at *
  rcases Nat.lt_or_ge t 2 with ht | ht
  · rcases Nat.eq_zero_or_pos t with h0 | h0
    · subst h0; simpa using h3
    · have : t = 1 := by omega
      subst this
      have e : Nat.ofDigits (2 ^ s) (carryLoop s l) = 0 := by omega
      have e2 : (carryLoop s l).sum = 0 := (ofDigits_eq_zero_iff_sum _ (by positivity) _).1 e
      have e3 : l.sum = 0 := by
        by_contra hc
        have := h4 (by omega)
        omega
      rw [e, (ofDigits_eq_zero_iff_sum _ (by positivity) _).2 e3]
  · exfalso
    have h5 : t * 2 ≤ t * Q := Nat.mul_le_mul_left _ hp
    have h6 : 2 * Q ≤ t * Q := Nat.mul_le_mul_right _ ht
    have h7 : t * Q ≤ Q - 1 + t := by omega
    -- t (Q - 1) ≤ Q - 1
    obtain ⟨q, rfl⟩ : ∃ q, Q = q + 2 := ⟨Q - 2, by omega⟩
    have h8 : t * (q + 2) = t * (q + 1) + t := by ring
    have h9 : 2 * (q + 1) ≤ t * (q + 1) := Nat.mul_le_mul_right _ ht
    omega

/-- In general the carry out of the top is added back at the bottom (end-around carry): an integer below
`2 (2^(s n) - 1)` that does not fit comes out reduced by `2^(s n) - 1`. -/
theorem carryLoop_wrap (s : Nat) (hs : 16 ≤ s) (l : List Nat) (hl : ∀ v ∈ l, v < 2 ^ (s + 16))
    (hn : 2 ≤ l.length) (h1 : (2 ^ s) ^ l.length ≤ Nat.ofDigits (2 ^ s) l)
    (h2 : Nat.ofDigits (2 ^ s) l < 2 * (2 ^ s) ^ l.length - 2) :
    Rep (2 ^ s) l.length (carryLoop s l) (Nat.ofDigits (2 ^ s) l + 1 - (2 ^ s) ^ l.length) := by
  obtain ⟨h3, h4, ⟨t, h5⟩, h6⟩ := carryLoop_spec s hs l hl hn
  refine ⟨h3, h4, ?_⟩
  have hb := Nat.ofDigits_lt_base_pow_length (b := 2 ^ s) (Nat.one_lt_two_pow (by omega)) h4
  rw [h3] at hb
  have hp : 1 < (2 ^ s) ^ l.length := Nat.one_lt_pow (by omega) (Nat.one_lt_two_pow (by omega))
  generalize (2 ^ s) ^ l.length = Q at *
  obtain ⟨q, rfl⟩ : ∃ q, Q = q + 1 := ⟨Q - 1, by omega⟩
  have h7 : t * (q + 1) = t * q + t := by ring
  have h8 : Nat.ofDigits (2 ^ s) (carryLoop s l) + t * q = Nat.ofDigits (2 ^ s) l := by omega
  rcases Nat.lt_trichotomy t 1 with h | h | h
  · have : t = 0 := by omega
    subst this; omega
  · subst h; omega
  · have := Nat.mul_le_mul_right q h
    omega

theorem carryStep_id (s : Nat) (hs : 16 ≤ s) (l : List Nat) (h : ¬ anyCarry s l = true) (hn : 2 ≤ l.length) :
    carryStep s l = l := by
  have hlt := not_anyCarry s l h
  have hp : (2 : Nat) ^ s ≤ 2 ^ (s + 16) := Nat.pow_le_pow_right (by norm_num) (by omega)
  rw [carryStep_eq s hs l (fun v hv => lt_of_lt_of_le (hlt v hv) hp) hn]
  have e1 : (l.map fun v => v % 2 ^ s) = l := by
    conv_rhs => rw [← List.map_id l]
    exact List.map_congr_left fun v hv => Nat.mod_eq_of_lt (hlt v hv)
  have e2 : (l.map fun v => v / 2 ^ s) = List.replicate l.length 0 := by
    rw [← List.map_const']
    exact List.map_congr_left fun v hv => Nat.div_eq_of_lt (hlt v hv)
  have e3 : roll (List.replicate l.length 0) = List.replicate l.length 0 := by
    obtain ⟨k, hk⟩ : ∃ k, l.length = k + 1 := ⟨l.length - 1, by omega⟩
    rw [hk]
    conv_lhs => rw [List.replicate_succ', roll_concat]
    rfl
  rw [e1, e2, e3]
  clear hlt h hn e1 e2 e3
  induction l with
  | nil => rfl
  | cons v l ih => simp [List.replicate_succ, ih]

theorem carryLoop_id (s : Nat) (l : List Nat) (h : ¬ anyCarry s l = true) : carryLoop s l = l := by
  rw [carryLoop, dif_neg (fun hc => h hc.2)]

/-- The batched loop does on each row what the loop on that row alone would do. -/
theorem carryLoopBatch_eq (s : Nat) (hs : 16 ≤ s) (rows : List (List Nat)) (hn : ∀ r ∈ rows, 2 ≤ r.length) :
    carryLoopBatch s rows = rows.map (carryLoop s) := by
  induction hm : batchSum rows using Nat.strongRecOn generalizing rows with
  | ind m ih =>
    rw [carryLoopBatch]
    by_cases h : 0 < s ∧ rows.any (anyCarry s) = true
    · rw [dif_pos h, ih _ (hm ▸ batch_lt s h.1 rows h.2) (carryStepBatch s rows) ?_ rfl, carryStepBatch, List.map_map]
      · apply List.map_congr_left
        intro r hr
        simp only [Function.comp]
        by_cases hc : anyCarry s r = true
        · conv_rhs => rw [carryLoop, dif_pos ⟨h.1, hc⟩]
        · rw [carryStep_id s hs r hc (hn r hr)]
      · intro r hr
        obtain ⟨r', hr', rfl⟩ := List.mem_map.1 hr
        rw [carryStep_length]; exact hn r' hr'
    · rw [dif_neg h]
      conv_lhs => rw [← List.map_id rows]
      apply List.map_congr_left
      intro r hr
      rw [id, carryLoop_id]
      intro hc
      exact h ⟨by omega, List.any_eq_true.2 ⟨r, hr, hc⟩⟩

end Verif.EcChunks

namespace Verif.EcChunks

/-! ## A fixed number of rounds -/

theorem carryAdd_succ (s k : Nat) (hs : 16 ≤ s) (l : List Nat) (hl : ∀ v ∈ l, v < 2 ^ (s + 16)) (hn : 2 ≤ l.length) :
    carryAdd s (k + 1) l = carryAdd s k (carryStep s l) := by
  rw [carryAdd]
  congr 1
  unfold carryStep
  have e1 : (l.map fun v => (v >>> s) % 2 ^ 16) = l.map fun v => v >>> s := by
    apply List.map_congr_left
    intro v hv
    rw [Nat.shiftRight_eq_div_pow]
    apply Nat.mod_eq_of_lt
    apply Nat.div_lt_of_lt_mul
    rw [← pow_add]; exact hl v hv
  dsimp only
  rw [e1, rollMul_eq _ (by simpa using hn)]
  congr 1
  conv_lhs => rw [← List.map_id (roll _)]
  apply List.map_congr_left
  intro v hv
  symm
  apply Nat.mod_eq_of_lt
  have : v ∈ l.map fun v => v >>> s := by
    rcases List.eq_nil_or_concat (l.map fun v => v >>> s) with e | ⟨m, x, e⟩
    · rw [e] at hv; simp [roll] at hv
    · rw [e, List.concat_eq_append, roll_concat] at hv
      rw [e, List.concat_eq_append]
      simp at hv ⊢; tauto
  obtain ⟨w, hw, rfl⟩ := List.mem_map.1 this
  rw [Nat.shiftRight_eq_div_pow]
  apply Nat.div_lt_of_lt_mul
  rw [← pow_add]; exact hl w hw

/-- A value that fits has no carry out of the last chunk. -/
theorem fits_top (B : Nat) (l : List Nat) (x : Nat) (hB : 0 < B)
    (h : Nat.ofDigits B (l ++ [x]) < B ^ (l.length + 1)) : x < B := by
  rw [Nat.ofDigits_append, Nat.ofDigits_singleton, pow_succ] at h
  have hp : 0 < B ^ l.length := by positivity
  exact Nat.lt_of_mul_lt_mul_left (a := B ^ l.length) (by omega)

theorem carryStep_fits (s : Nat) (hs : 16 ≤ s) (l : List Nat) (hl : ∀ v ∈ l, v < 2 ^ (s + 16))
    (hn : 2 ≤ l.length) (hx : Nat.ofDigits (2 ^ s) l < (2 ^ s) ^ l.length) :
    Nat.ofDigits (2 ^ s) (carryStep s l) = Nat.ofDigits (2 ^ s) l ∧
    ∀ k, (∀ i < k, l.getD i 0 < 2 ^ s) → ∀ i < k + 1, (carryStep s l).getD i 0 < 2 ^ s := by
  rcases List.eq_nil_or_concat l with e | ⟨m, x, e⟩
  · rw [e] at hn; simp at hn
  rw [List.concat_eq_append] at e
  have hxt : x < 2 ^ s := fits_top (2 ^ s) m x (by positivity) (by rw [e] at hx; simpa using hx)
  have hroll : roll (l.map fun v => v / 2 ^ s) = 0 :: m.map fun v => v / 2 ^ s := by
    rw [e, List.map_append, List.map_cons, List.map_nil, Nat.div_eq_of_lt hxt, roll_concat]
  have hstep := carryStep_eq s hs l hl hn
  rw [hroll] at hstep
  constructor
  · rw [hstep, ofDigits_zipWith_add _ _ _ (by rw [e]; simp), Nat.ofDigits_cons]
    have h2 := ofDigits_low_high s l
    have h3 : Nat.ofDigits (2 ^ s) (l.map fun v => v / 2 ^ s) = Nat.ofDigits (2 ^ s) (m.map fun v => v / 2 ^ s) := by
      rw [e, List.map_append, Nat.ofDigits_append, List.map_cons, List.map_nil, Nat.div_eq_of_lt hxt]; simp
    rw [h3] at h2
    simpa using h2
  · intro k hk i hi
    by_cases hil : i < l.length
    · rw [hstep, List.getD_eq_getElem _ _ (by rw [e] at hil ⊢; simpa using hil), List.getElem_zipWith]
      simp only [List.getElem_map]
      have hz : (0 :: m.map fun v => v / 2 ^ s)[i]'(by rw [e] at hil; simpa using hil) = 0 := by
        cases i with
        | zero => rfl
        | succ i =>
          have hm : i < m.length := by rw [e] at hil; simpa using hil
          simp only [List.getElem_cons_succ, List.getElem_map]
          apply Nat.div_eq_of_lt
          have := hk i (by omega)
          rw [e, List.getD_append _ _ _ _ hm, List.getD_eq_getElem _ _ hm] at this
          exact this
      rw [hz, Nat.add_zero]
      exact Nat.mod_lt _ (by positivity)
    · rw [List.getD_eq_default _ _ (by rw [carryStep_length]; omega)]; positivity

theorem carryAdd_rep_aux (s : Nat) (hs : 16 ≤ s) (r : Nat) (l : List Nat) (hl : ∀ v ∈ l, v < 2 ^ (s + 16))
    (hn : 2 ≤ l.length) (hx : Nat.ofDigits (2 ^ s) l < (2 ^ s) ^ l.length) (k : Nat)
    (hk : ∀ i < k, l.getD i 0 < 2 ^ s) (hrk : l.length ≤ k + r + 1) :
    Rep (2 ^ s) l.length (carryAdd s r l) (Nat.ofDigits (2 ^ s) l) := by
  induction r generalizing l k with
  | zero =>
    refine ⟨rfl, ?_, rfl⟩
    intro c hc
    obtain ⟨i, hi, rfl⟩ := List.getElem_of_mem hc
    simp only [carryAdd] at hi ⊢
    by_cases hik : i < k
    · have := hk i hik
      rwa [List.getD_eq_getElem _ _ hi] at this
    · rcases List.eq_nil_or_concat l with e | ⟨m, x, e⟩
      · rw [e] at hn; simp at hn
      rw [List.concat_eq_append] at e
      have hxt : x < 2 ^ s := fits_top (2 ^ s) m x (by positivity) (by rw [e] at hx; simpa using hx)
      subst e
      have : i = m.length := by simp at hi hrk; omega
      subst this
      simpa using hxt
  | succ r ih =>
    rw [carryAdd_succ s r hs l hl hn]
    obtain ⟨h1, h2⟩ := carryStep_fits s hs l hl hn hx
    have hlen := carryStep_length s l
    have := ih (carryStep s l) (fun v hv => carryStep_lt s hs l v hv) (by omega) (by rw [h1, hlen]; exact hx) (k + 1)
      (h2 k hk) (by omega)
    rwa [h1, hlen] at this

/-- `carry_add` with at least `n - 1` rounds returns the canonical chunks of a value that fits. -/
theorem carryAdd_rep (s : Nat) (hs : 16 ≤ s) (r : Nat) (l : List Nat) (hl : ∀ v ∈ l, v < 2 ^ (s + 16))
    (hn : 2 ≤ l.length) (hx : Nat.ofDigits (2 ^ s) l < (2 ^ s) ^ l.length) (hr : l.length ≤ r + 1) :
    Rep (2 ^ s) l.length (carryAdd s r l) (Nat.ofDigits (2 ^ s) l) :=
  carryAdd_rep_aux s hs r l hl hn hx 0 (fun i hi => by omega) (by omega)

end Verif.EcChunks
