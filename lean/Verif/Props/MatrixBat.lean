import Verif.Lemmas.MatrixBat

/-! # C73: the basis-aligned matrix product for an arbitrary 32-bit modulus -/

namespace Verif.Props
open Verif.MatrixBat Finset

/-- C73: `chunk_decomposition` returns the digits of its argument in the chunk base. -/
theorem C73_chunks (B x : Nat) (hB : 1 < B) :
    x = ∑ p ∈ range (chunkDecomposition x B).length, B ^ p * (chunkDecomposition x B).getD p 0 ∧
      (∀ c ∈ chunkDecomposition x B, c < B) ∧ ∀ T, x < B ^ T → (chunkDecomposition x B).length ≤ T := by
  obtain ⟨h1, h2, h3⟩ := chunk_spec hB x
  exact ⟨by rw [← val_eq_sum, h1], h2, h3⟩

/-- C73: `rechunkify_after_chunkwise_add` returns proper chunks of the same number, if it fits the given length; the two
additional chunks are zero. -/
theorem C73_rechunkify (B : Nat) (hB : 1 < B) (a : List Nat) (ha : ∀ x ∈ a, x < B ^ 2)
    (hV : ∑ p ∈ range a.length, B ^ p * a.getD p 0 < B ^ a.length) :
    ((rechunkify B a).take a.length).length = a.length ∧ (∀ x ∈ (rechunkify B a).take a.length, x < B) ∧
      ∑ p ∈ range a.length, B ^ p * ((rechunkify B a).take a.length).getD p 0 = ∑ p ∈ range a.length, B ^ p * a.getD p 0 := by
  rw [← val_eq_sum] at hV ⊢
  obtain ⟨h1, h2, h3⟩ := rechunkify_spec hB a ha hV
  refine ⟨h2, h3, ?_⟩
  rw [val_eq_sum, h2] at h1
  exact h1

example := C73_rechunkify 256 (by norm_num) [65535, 255, 0] (by decide) (by decide)

/-- C73: `smul_as_dense_gemv_bat` with 8-bit chunks ends and returns the byte matrix of the multiplication by `x` modulo
`q`: column `c` is the number `x * 256^c` up to a multiple of `q`. -/
theorem C73_dense (T x q : Nat) (hT2 : 2 ≤ T) (hT : T ≤ 256) (hx : x < 256 ^ T) (hq : 0 < q) (hqT : q ≤ 256 ^ T) :
    ∃ F R, (∀ fuel, F ≤ fuel → denseBat fuel x T 8 q = some R) ∧ (∀ p c, p < T → c < T → R p c < 256) ∧
      ∀ c, c < T → (∑ p ∈ range T, 256 ^ p * R p c) % q = x * 256 ^ c % q := by
  have hB : 1 < 256 := by norm_num
  obtain ⟨h1, h2, h3⟩ := chunk_spec hB x
  have hl := h3 T hx
  have hfirst := first_spec hB T q hT hq hqT (chunkDecomposition x 256) h2 hl
  rw [h1] at hfirst
  obtain ⟨R, r1, r2⟩ := mainLoop_spec hB T q x _ hT2 hT hl hq hqT _ hfirst
  refine ⟨measure 256 T (blockLoop T (chunkDecomposition x 256).length (addProjected 256 T q (chunkDecomposition x 256))
    (initial T (chunkDecomposition x 256))) + 1, fun p c => (R c).getD p 0 % 2 ^ 8, ?_, ?_, ?_⟩
  · intro fuel hf
    unfold denseBat
    simp only [show 2 ^ 8 = 256 from rfl]
    rw [r1 fuel (by omega)]
    rfl
  · intro p c _ _
    exact Nat.mod_lt _ (by norm_num)
  · intro c hc
    obtain ⟨hi, hd⟩ := r2 c hc
    obtain ⟨d1, d2⟩ := (doneCol_iff hB T _).1 hd
    rw [← hi.modEq, val_eq_sum, hi.len]
    congr 1
    have hsub : ∑ p ∈ range T, 256 ^ p * (R c).getD p 0 = ∑ p ∈ range (T + T - 1), 256 ^ p * (R c).getD p 0 :=
      sum_subset (fun p hp => by simp at *; omega) (fun p _ hp => by rw [d2 p (by simpa using hp), Nat.mul_zero])
    rw [← hsub]
    apply sum_congr rfl
    intro p hp
    have hp' : p < (R c).length := by rw [hi.len]; simp at hp; omega
    beta_reduce
    rw [Nat.mod_eq_of_lt]
    rw [List.getD_eq_getElem _ _ hp']
    exact d1 _ (List.getElem_mem hp')

example := C73_dense 4 4294967290 4294967291 (by norm_num) (by norm_num) (by norm_num) (by norm_num) (by norm_num)

theorem bytes_sum (y : Nat) (hy : y < 2 ^ 32) : ∑ t ∈ range 4, 256 ^ t * (y / 256 ^ t % 256) = y := by
  simp only [sum_range_succ, range_zero, sum_empty]
  norm_num
  omega

/-- The accumulators do not overflow for at most 8256 columns. -/
theorem batAdapt_eq (n : Nat) (hn : n ≤ 8256) (lhs : Nat → Nat → Nat → Nat) (y : Nat → Nat)
    (hl : ∀ l p t, l < n → p < 4 → t < 4 → lhs l p t < 256) :
    batAdapt n lhs y = ∑ l ∈ range n, ∑ t ∈ range 4, (y l / 256 ^ t % 256) * ∑ p ∈ range 4, 256 ^ p * lhs l p t := by
  obtain ⟨S, hS⟩ : ∃ S : Nat → Nat, S = fun p => ∑ l ∈ range n, ∑ t ∈ range 4, lhs l p t * (y l / 256 ^ t % 256) := ⟨_, rfl⟩
  have hSlt : ∀ p, p < 4 → S p < 2 ^ 31 := by
    intro p hp
    rw [hS]
    have : ∑ l ∈ range n, ∑ t ∈ range 4, lhs l p t * (y l / 256 ^ t % 256) ≤ ∑ _l ∈ range n, ∑ _t ∈ range 4, 255 * 255 := by
      apply sum_le_sum
      intro l hlm
      apply sum_le_sum
      intro t ht
      have h1 := hl l p t (mem_range.1 hlm) hp (mem_range.1 ht)
      have h2 := Nat.mod_lt (y l / 256 ^ t) (show 0 < 256 by norm_num)
      exact Nat.mul_le_mul (by omega) (by omega)
    simp only [sum_const, card_range, nsmul_eq_mul, Nat.cast_id] at this
    simp only
    omega
  have hcast : ∀ p, (∑ l ∈ range n, ∑ t ∈ range 4, (lhs l p t : Int) * ((y l / 256 ^ t % 256 : Nat) : Int)) = (S p : Int) := by
    intro p
    rw [hS]
    push_cast
    rfl
  have hterm : ∀ p, p < 4 → ((Int.bmod (∑ l ∈ range n, ∑ t ∈ range 4, (lhs l p t : Int) *
      ((y l / 256 ^ t % 256 : Nat) : Int)) (2 ^ 32)) % 2 ^ 64).toNat * 2 ^ (8 * p) % 2 ^ 64 = S p * 256 ^ p := by
    intro p hp
    have h1 := hSlt p hp
    rw [hcast, Int.bmod_eq_of_le (by omega) (by omega), Int.emod_eq_of_lt (by omega) (by norm_num; omega),
      Int.toNat_natCast, pow_mul]
    norm_num
    have : 256 ^ p ≤ 256 ^ 3 := Nat.pow_le_pow_right (by norm_num) (by omega)
    have : S p * 256 ^ p ≤ 2 ^ 31 * 256 ^ 3 := Nat.mul_le_mul h1.le this
    omega
  have htot : ∑ p ∈ range 4, S p * 256 ^ p < 2 ^ 64 := by
    simp only [sum_range_succ, range_zero, sum_empty]
    have := hSlt 0 (by norm_num)
    have := hSlt 1 (by norm_num)
    have := hSlt 2 (by norm_num)
    have := hSlt 3 (by norm_num)
    norm_num
    omega
  unfold batAdapt
  rw [sum_congr rfl (fun p hp => hterm p (mem_range.1 hp)), Nat.mod_eq_of_lt htot, hS]
  simp only [sum_mul, mul_sum]
  rw [sum_comm]
  apply sum_congr rfl
  intro l _
  rw [sum_comm]
  apply sum_congr rfl
  intro t _
  apply sum_congr rfl
  intro p _
  ring

/-- C73: `hpmatmul_bat_adapt` after `hpmatmul_offline_compile_bat` is the matrix product modulo `q` (`hpmatmul_golden`)
for every 32-bit modulus, all `uint32` matrices and up to 8256 columns. -/
theorem C73_matmul (n q : Nat) (hn : n ≤ 8256) (hq : 0 < q) (hq32 : q ≤ 2 ^ 32) (a b : Nat → Nat → Nat)
    (ha : ∀ i k, a i k < 2 ^ 32) (hb : ∀ k j, b k j < 2 ^ 32) (i : Nat) :
    ∃ F lhs, (∀ fuel, F ≤ fuel → ∀ k, k < n → offlineCompile fuel q a i k = some (lhs k)) ∧
      ∀ j, batAdapt n lhs (fun k => b k j) % q = golden n (fun k => a i k) (fun k => b k j) q := by
  have h4 : ∀ k, ∃ F R, (∀ fuel, F ≤ fuel → denseBat fuel (a i k) 4 8 q = some R) ∧ (∀ p c, p < 4 → c < 4 → R p c < 256) ∧
      ∀ c, c < 4 → (∑ p ∈ range 4, 256 ^ p * R p c) % q = a i k * 256 ^ c % q :=
    fun k => C73_dense 4 (a i k) q (by norm_num) (by norm_num) (by have := ha i k; norm_num at *; omega) hq (by norm_num at *; omega)
  choose F R hF hR hc using h4
  refine ⟨∑ k ∈ range n, F k, R, ?_, ?_⟩
  · intro fuel hfuel k hk
    exact hF k fuel ((single_le_sum (f := F) (fun _ _ => Nat.zero_le _) (mem_range.2 hk)).trans hfuel)
  · intro j
    rw [batAdapt_eq n hn R _ (fun l p t _ hp ht => hR l p t hp ht)]
    unfold golden
    rw [sum_nat_mod, sum_nat_mod (range n) q (fun k => a i k * b k j)]
    congr 1
    apply sum_congr rfl
    intro k _
    have e : (∑ t ∈ range 4, (b k j / 256 ^ t % 256) * ∑ p ∈ range 4, 256 ^ p * R k p t) % q =
        (∑ t ∈ range 4, (b k j / 256 ^ t % 256) * (a i k * 256 ^ t)) % q := by
      rw [sum_nat_mod, sum_nat_mod (range 4) q (fun t => (b k j / 256 ^ t % 256) * (a i k * 256 ^ t))]
      congr 1
      apply sum_congr rfl
      intro t ht
      rw [Nat.mul_mod, hc k t (mem_range.1 ht), ← Nat.mul_mod]
    rw [e]
    congr 1
    conv_rhs => rw [← bytes_sum (b k j) (hb k j), mul_sum]
    apply sum_congr rfl
    intro t _
    ring

example := C73_matmul 8256 4294967291 (by norm_num) (by norm_num) (by norm_num) (fun _ k => 4294967295 - k) (fun k _ => 4294967295 - k)
  (fun _ _ => by omega) (fun _ _ => by omega) 0

/-- `hpmatmul_bat_adapt` with all bytes 255. -/
theorem batAdapt_max (n : Nat) : batAdapt n (fun _ _ _ => 255) (fun _ => 2 ^ 32 - 1) =
    (((Int.bmod (n * 260100) (2 ^ 32)) % 2 ^ 64).toNat % 2 ^ 64 + ((Int.bmod (n * 260100) (2 ^ 32)) % 2 ^ 64).toNat * 2 ^ 8 % 2 ^ 64 +
      ((Int.bmod (n * 260100) (2 ^ 32)) % 2 ^ 64).toNat * 2 ^ 16 % 2 ^ 64 +
      ((Int.bmod (n * 260100) (2 ^ 32)) % 2 ^ 64).toNat * 2 ^ 24 % 2 ^ 64) % 2 ^ 64 := by
  unfold batAdapt
  have e : ∑ l ∈ range n, ∑ t ∈ range 4, ((255 : Nat) : Int) * (((2 ^ 32 - 1) / 256 ^ t % 256 : Nat) : Int) = n * 260100 := by
    rw [sum_const, card_range]
    simp only [sum_range_succ, range_zero, sum_empty]
    norm_num
  simp only [e, sum_range_succ _ 3, sum_range_succ _ 2, sum_range_succ _ 1, sum_range_succ _ 0, range_zero, sum_empty]
  norm_num

theorem golden_max (n : Nat) : golden n (fun _ => 2 ^ 32 - 1) (fun _ => 2 ^ 32 - 1) (2 ^ 32 - 1) = 0 := by
  unfold golden
  rw [sum_const, nsmul_eq_mul, ← mul_assoc]
  exact Nat.mul_mod_left _ _

/-- C73, the limit on the number of columns: with 8257 columns an `int32` accumulator can overflow. The chunk matrix is the
compiled one of `2^32 - 1` for the modulus `2^32 - 1`. -/
theorem C73_overflow :
    (denseBat 5 (2 ^ 32 - 1) 4 8 (2 ^ 32 - 1)).map (fun R => (List.range 4).map (fun c => (List.range 4).map (fun p => R p c))) =
      some (List.replicate 4 (List.replicate 4 255)) ∧
    batAdapt 8257 (fun _ _ _ => 255) (fun _ => 2 ^ 32 - 1) % (2 ^ 32 - 1) ≠
      golden 8257 (fun _ => 2 ^ 32 - 1) (fun _ => 2 ^ 32 - 1) (2 ^ 32 - 1) := by
  refine ⟨by decide +kernel, ?_⟩
  rw [batAdapt_max, golden_max]
  decide

/-- C73, a violation: `smul_as_dense_gemv_bat_jax` counts the bottom block twice. For `x = 256` and the default modulus
column 3 should be `256 * 256^3 = 5` modulo `q`, and is 10. -/
theorem C73_jax_double_counts :
    (denseBatJax 3 256 4294967291).map (fun R => (∑ p ∈ range 4, 256 ^ p * R p 3) % 4294967291) = some 10 ∧
      256 * 256 ^ 3 % 4294967291 = 5 ∧
      (denseBat 3 256 4 8 4294967291).map (fun R => (∑ p ∈ range 4, 256 ^ p * R p 3) % 4294967291) = some 5 := by
  decide +kernel

theorem bytes_byte (x : Nat) (hx : x < 256) : bytes 4 x = [x, 0, 0, 0] := by
  simp only [bytes, List.range_succ, List.range_zero, List.nil_append, List.map_cons, List.map_nil,
    List.cons_append, List.cons.injEq, and_true]
  omega

theorem addProjectedJax_zero (q : Nat) (b : List Nat) (i j : Nat) (h : b.getD (i + j + 1) 0 = 0) (col : List Nat)
    (hc : ∀ e ∈ col, e < 65536) : addProjectedJax q b i j col = col := by
  have hz : ∀ (l z : List Nat), (∀ e ∈ l, e < 65536) → (∀ e ∈ z, e = 0) → addPrefix 256 l z = l := by
    intro l
    induction l with
    | nil => intro z _ _; rfl
    | cons a l ih =>
      intro z h1 h2
      cases z with
      | nil => rfl
      | cons y z =>
        simp only [addPrefix]
        rw [ih z (fun e he => h1 e (by simp [he])) (fun e he => h2 e (by simp [he])), h2 y (by simp), Nat.add_zero,
          Nat.mod_eq_of_lt (show a < 256 ^ 2 from h1 a (by simp))]
  unfold addProjectedJax
  rw [h]
  refine hz _ _ hc (fun e he => ?_)
  have := List.mem_of_mem_take he
  simp only [bytes, Nat.zero_mul, Nat.zero_mod, Nat.zero_div, List.mem_map] at this
  obtain ⟨_, _, rfl⟩ := this
  rfl

/-- C73, what holds for `smul_as_dense_gemv_bat_jax`: the matrix of a single byte, which has no bottom block, is
right. -/
theorem C73_jax_partial (fuel x q : Nat) (hx : x < 256) :
    ∃ R, denseBatJax (fuel + 1) x q = some R ∧ (∀ p c, p < 4 → c < 4 → R p c < 256) ∧
      ∀ c, c < 4 → ∑ p ∈ range 4, 256 ^ p * R p c = x * 256 ^ c := by
  obtain ⟨M, hM⟩ : ∃ M : Cols, M = fun c => (List.range 7).map (fun r => if c ≤ r then (bytes 4 x).getD (r - c) 0 else 0) :=
    ⟨_, rfl⟩
  have hcol : ∀ c, c < 4 → M c = (List.range 7).map (fun r => if r = c then x else 0) := by
    intro c hc
    rw [hM, bytes_byte x hx]
    apply List.map_congr_left
    intro r hr
    rcases Nat.lt_trichotomy r c with h | h | h
    · rw [if_neg (by omega), if_neg (by omega)]
    · subst h; simp
    · rw [if_pos (by omega), if_neg (by omega)]
      obtain ⟨k, hk⟩ : ∃ k, r - c = k + 1 := ⟨r - c - 1, by omega⟩
      rw [hk, List.getD_cons_succ]
      rcases k with _ | _ | _ | k <;> rfl
  have hsm : ∀ c, c < 4 → ∀ e ∈ M c, e < 256 := by
    intro c hc e he
    rw [hcol c hc] at he
    obtain ⟨r, _, rfl⟩ := List.mem_map.1 he
    split <;> omega
  have hblock : ∀ c, c < 4 → blockLoop 4 4 (addProjectedJax q (bytes 4 x)) M c = M c := by
    intro c hc
    rw [blockLoop_spec 4 4 le_rfl _ _ c hc]
    apply foldl_id
    intro i hi
    split
    · refine addProjectedJax_zero q _ _ _ ?_ _ (fun e he => (hsm c hc e he).trans (by norm_num))
      rw [bytes_byte x hx, List.getD_cons_succ]
      rcases hk : i + (4 - 1 - c) with _ | _ | _ | k <;> rfl
    · rfl
  have hfin : finished 256 4 (blockLoop 4 4 (addProjectedJax q (bytes 4 x)) M) = true := by
    rw [finished_iff]
    intro c hc
    rw [hblock c hc, doneCol_iff (by norm_num)]
    refine ⟨hsm c hc, fun p hp => ?_⟩
    rw [hcol c hc]
    by_cases h7 : p < 7
    · rw [List.getD_eq_getElem _ _ (by simpa using h7)]
      simp only [List.getElem_map, List.getElem_range]
      rw [if_neg (by omega)]
    · rw [List.getD_eq_default _ _ (by simpa using h7)]
  refine ⟨fun p c => (blockLoop 4 4 (addProjectedJax q (bytes 4 x)) M c).getD p 0 % 2 ^ 8, ?_, ?_, ?_⟩
  · unfold denseBatJax
    simp only
    rw [← hM, mainLoopJax, if_pos hfin]
    rfl
  · intro p c _ _
    exact Nat.mod_lt _ (by norm_num)
  · intro c hc
    have : ∀ p, p < 4 → (blockLoop 4 4 (addProjectedJax q (bytes 4 x)) M c).getD p 0 % 2 ^ 8 = if p = c then x else 0 := by
      intro p hp
      rw [hblock c hc, hcol c hc, List.getD_eq_getElem _ _ (by simp; omega)]
      simp only [List.getElem_map, List.getElem_range]
      split
      · exact Nat.mod_eq_of_lt hx
      · rfl
    rw [sum_congr rfl (fun p hp => congrArg (256 ^ p * ·) (this p (mem_range.1 hp)))]
    simp only [mul_ite, Nat.mul_zero, sum_ite_eq', mem_range, if_pos hc]
    ring

/-- A byte, and the shape of its matrix. -/
example : (200 : Nat) < 256 ∧ (denseBatJax 1 200 4294967291).map (fun R => (List.range 4).map (fun p => R p 2)) =
    some [0, 0, 200, 0] := by decide +kernel

/-- C73, a violation: with 16-bit chunks (a documented option) the result is cast to `uint8` and loses the upper half of
every chunk. -/
theorem C73_wide_chunks :
    (denseBat 3 256 2 16 4294967291).map (fun R => ∑ p ∈ range 2, 65536 ^ p * R p 0) = some 0 := by
  decide +kernel

/-- A matrix entry that needs the carry loop and the `while` loop. -/
example : (denseBat 5 4294967290 4 8 4294967291).map (fun R => (List.range 4).map (fun c => (List.range 4).map (fun p => R p c))) =
    some [[250, 255, 255, 255], [251, 254, 255, 255], [251, 255, 254, 255], [251, 255, 255, 254]] := by
  decide +kernel

example : (2 : Nat) ≤ 4 ∧ 4 ≤ 256 ∧ 4294967290 < 256 ^ 4 ∧ 0 < 4294967291 ∧ 4294967291 ≤ 256 ^ 4 := by norm_num

end Verif.Props
