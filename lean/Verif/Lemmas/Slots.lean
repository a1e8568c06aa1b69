import Verif.Props.NttBat

/-!
# Slot vectors as elements of `Z_q[X]/(X^N + 1)`

`ringOf k q f` is the ring element whose coefficients are the reference inverse transform (`intt_negacyclic_poly`) of the
slot vector `f`. The lemmas say that it is the ring isomorphism between slot vectors with pointwise operations and the ring.
-/

namespace Verif.Slots
open Verif.CkksMath Verif.BitReversal Verif.NttCpu Verif.Props Verif.NttBat Finset

/-- A prime supporting transforms of length `2^k`. -/
structure NttPrime (k q : Nat) : Prop where
  prime : q.Prime
  dvd : 2 * 2 ^ k ∣ q - 1

/-- The ring. -/
abbrev Rq (k q : Nat) := Nega.Q (ZMod q) (2 ^ k)

/-- The ring element with the given integer coefficients. -/
noncomputable def polyOf (k q : Nat) (x : Nat → Int) : Rq k q := Nega.ev (fun i : Fin (2 ^ k) => (x i : ZMod q))

/-- The ring element with slot vector `f`. -/
noncomputable def ringOf (k q : Nat) (f : Nat → Nat) : Rq k q :=
  match inttPoly (2 ^ k) q (fun p => (f p : Int)) with
  | .ok x => polyOf k q x
  | .error _ => 0

variable {k q : Nat}

theorem exists_psi (h : NttPrime k q) :
    ∃ psi : Int, rootOfUnity (2 * 2 ^ k) q = .ok psi ∧ orderOf (psi : ZMod q) = 2 * 2 ^ k := by
  obtain ⟨psi, h1, h2, -⟩ := C31_poly k q h.prime h.dvd
  exact ⟨psi, h1, h2⟩

/-- The root the code uses. -/
noncomputable def root (h : NttPrime k q) : ZMod q := ((exists_psi h).choose : ZMod q)

theorem root_order (h : NttPrime k q) : orderOf (root h) = 2 * 2 ^ k := (exists_psi h).choose_spec.2

theorem root_half (h : NttPrime k q) : root h ^ 2 ^ k = -1 := pow_half_order h.prime (root_order h)

theorem root_ne (h : NttPrime k q) : root h ≠ 0 := by
  haveI : Fact q.Prime := ⟨h.prime⟩
  intro h0
  have := root_order h
  rw [h0, orderOf_zero] at this
  have := Nat.one_le_two_pow (n := k)
  omega

theorem odd_half (h : NttPrime k q) (e : Nat) : (root h ^ (2 * e + 1)) ^ 2 ^ k = -1 := by
  rw [← pow_mul, Nat.mul_comm, pow_mul, root_half, pow_succ, pow_mul]; simp

/-- Evaluation at the `e`-th odd power. -/
noncomputable def evalE (h : NttPrime k q) (e : Nat) : Rq k q →+* ZMod q := evalAt (root h ^ (2 * e + 1)) (odd_half h e)

/-- Evaluation at slot `p`. -/
noncomputable def slot (h : NttPrime k q) (p : Nat) : Rq k q →+* ZMod q := evalE h (bitReversal p k)

theorem evalE_polyOf (h : NttPrime k q) (e : Nat) (x : Nat → Int) :
    evalE h e (polyOf k q x) = ∑ j ∈ range (2 ^ k), (x j : ZMod q) * root h ^ ((2 * e + 1) * j) := by
  unfold evalE polyOf
  rw [evalAt_ev, ← Fin.sum_univ_eq_sum_range (fun j => (x j : ZMod q) * root h ^ ((2 * e + 1) * j))]
  apply sum_congr rfl
  intro j _
  rw [← pow_mul]

theorem evalE_ev (h : NttPrime k q) (e : Nat) (x : Fin (2 ^ k) → ZMod q) :
    evalE h e (Nega.ev x) = ∑ j : Fin (2 ^ k), x j * root h ^ ((2 * e + 1) * j) := by
  unfold evalE
  rw [evalAt_ev]
  apply sum_congr rfl
  intro j _
  rw [← pow_mul]

theorem fact (h : NttPrime k q) : Fact q.Prime := ⟨h.prime⟩

theorem exists_poly (h : NttPrime k q) (a : Rq k q) : ∃ x : Nat → Int, polyOf k q x = a ∧ ∀ i, 0 ≤ x i ∧ x i < q := by
  have := fact h
  have hN : 0 < 2 ^ k := by positivity
  refine ⟨fun i => if hi : i < 2 ^ k then ((Nega.coeffs a ⟨i, hi⟩).val : Int) else 0, ?_, ?_⟩
  · conv_rhs => rw [← Nega.ev_coeffs hN a]
    unfold polyOf
    congr 1
    funext i
    simp
  · intro i
    have := h.prime.pos
    simp only
    split
    · exact ⟨by omega, by exact_mod_cast ZMod.val_lt _⟩
    · omega

/-- Two ring elements with the same evaluations are equal. -/
theorem ring_ext (h : NttPrime k q) {a b : Rq k q} (hab : ∀ e, e < 2 ^ k → evalE h e a = evalE h e b) : a = b := by
  have := fact h
  obtain ⟨x, rfl, -⟩ := exists_poly h a
  obtain ⟨y, rfl, -⟩ := exists_poly h b
  have hN : 0 < 2 ^ k := by positivity
  unfold polyOf
  congr 1
  funext i
  have hs : ((2 ^ k : Nat) : ZMod q)⁻¹ * ((2 ^ k : Nat) : ZMod q) = 1 := by
    apply inv_mul_cancel₀
    intro h0
    rw [ZMod.natCast_eq_zero_iff] at h0
    have := Nat.le_of_dvd hN h0
    have h5 := Nat.le_of_dvd (by have := h.prime.two_le; omega) h.dvd
    omega
  have e := fun z : Nat → Int => eval_inverse (2 ^ k) (root h) (root h)⁻¹ _ (root_order h) hN
    (mul_inv_cancel₀ (root_ne h)) hs (fun j => (z j : ZMod q)) i i.isLt
  rw [← e x, ← e y]
  congr 1
  apply sum_congr rfl
  intro e' he'
  rw [← evalE_polyOf, ← evalE_polyOf, hab e' (mem_range.1 he')]

theorem slot_ext (h : NttPrime k q) {a b : Rq k q} (hab : ∀ p, p < 2 ^ k → slot h p a = slot h p b) : a = b := by
  apply ring_ext h
  intro e he
  have := hab (bitReversal e k) (rev_lt e k)
  unfold slot at this
  rwa [rev_rev_of_lt he] at this

/-- The reference inverse transform always succeeds. -/
theorem intt_run (h : NttPrime k q) (f : Nat → Int) :
    ∃ x, inttPoly (2 ^ k) q f = .ok x ∧ (∀ i, i < 2 ^ k → 0 ≤ x i ∧ x i < q) ∧
      ∀ p, p < 2 ^ k → slot h p (polyOf k q x) = (f p : ZMod q) := by
  obtain ⟨w, hw⟩ : ∃ w, w = (exists_psi h).choose := ⟨_, rfl⟩
  have hs := (exists_psi h).choose_spec.1
  rw [← hw] at hs
  have hroot : root h = (w : ZMod q) := by unfold root; rw [← hw]
  have hh : (w : ZMod q) ^ 2 ^ k = -1 := by rw [← hroot]; exact root_half h
  have hq2 := h.prime.two_le
  have hodd : q % 2 = 1 := by
    obtain ⟨m, hm⟩ := h.dvd
    have : q - 1 = 2 * (2 ^ k * m) := by rw [hm]; ring
    omega
  obtain ⟨s, r, h1, h2, h3⟩ := C31_inverse_right k q hq2 hodd w hh
    (fun i => f (perm (2 ^ k) i))
  obtain ⟨r', g1, g2⟩ := C31_forward k q hq2 w hh s
  rw [h2] at g1
  cases g1
  -- the result is reduced: it is the inverse of its own transform
  obtain ⟨r'', l1, l2⟩ := C31_inverse_left k q hq2 hodd w hh s
  rw [h2] at l1
  cases l1
  obtain ⟨s', l3, l4⟩ := l2 (fun i => f (perm (2 ^ k) i)) (fun i hi => by rw [h3 i hi, Int.emod_emod_of_dvd _ (dvd_refl _)])
  rw [h1] at l3
  cases l3
  refine ⟨s, ?_, ?_, ?_⟩
  · unfold inttPoly
    simp only [hs, bind, Except.bind]
    exact h1
  · intro i hi
    rw [l4 i hi]
    exact emod_bounds (by omega) _
  · intro p hp
    unfold slot
    rw [evalE_polyOf]
    have := (g2 (bitReversal p k) (rev_lt p k)).2.2
    rw [hroot, ← this, h3 _ (rev_lt p k), perm_two_pow, rev_rev_of_lt hp, ZMod.intCast_mod]

theorem slot_ringOf (h : NttPrime k q) (f : Nat → Nat) (p : Nat) (hp : p < 2 ^ k) :
    slot h p (ringOf k q f) = (f p : ZMod q) := by
  obtain ⟨x, h1, -, h3⟩ := intt_run h (fun p => (f p : Int))
  unfold ringOf
  rw [h1]
  simp only
  rw [h3 p hp, Int.cast_natCast]

/-- The reference inverse transform yields the coefficients of `ringOf`. -/
theorem intt_ringOf (h : NttPrime k q) (f : Nat → Nat) :
    ∃ x, inttPoly (2 ^ k) q (fun p => (f p : Int)) = .ok x ∧ (∀ i, i < 2 ^ k → 0 ≤ x i ∧ x i < q) ∧
      polyOf k q x = ringOf k q f := by
  obtain ⟨x, h1, h2, -⟩ := intt_run h (fun p => (f p : Int))
  refine ⟨x, h1, h2, ?_⟩
  unfold ringOf
  rw [h1]

theorem ringOf_eq_iff (h : NttPrime k q) (f : Nat → Nat) (a : Rq k q) :
    ringOf k q f = a ↔ ∀ p, p < 2 ^ k → (f p : ZMod q) = slot h p a := by
  constructor
  · intro e p hp
    rw [← e, slot_ringOf h f p hp]
  · intro e
    apply slot_ext h
    intro p hp
    rw [slot_ringOf h f p hp, e p hp]

/-- The reference forward transform has slot vector of the polynomial. -/
theorem ntt_run (h : NttPrime k q) (x : Nat → Int) :
    ∃ r, nttPoly (2 ^ k) q x = .ok r ∧ (∀ p, p < 2 ^ k → 0 ≤ r p ∧ r p < q ∧ (r p : ZMod q) = slot h p (polyOf k q x)) := by
  have hs := (exists_psi h).choose_spec
  obtain ⟨psi, h1, -, h3⟩ := C31_poly k q h.prime h.dvd
  rw [hs.1] at h1
  cases h1
  obtain ⟨r, s, g1, -, g2, -⟩ := h3 x
  refine ⟨r, g1, ?_⟩
  intro p hp
  obtain ⟨b1, b2, b3⟩ := g2 p hp
  refine ⟨b1, b2, ?_⟩
  unfold slot
  rw [evalE_polyOf, b3]
  rfl

theorem ntt_ringOf (h : NttPrime k q) (x : Nat → Int) :
    ∃ r, nttPoly (2 ^ k) q x = .ok r ∧ (∀ p, p < 2 ^ k → 0 ≤ r p ∧ r p < q) ∧
      ringOf k q (fun p => (r p).toNat) = polyOf k q x := by
  obtain ⟨r, h1, h2⟩ := ntt_run h x
  refine ⟨r, h1, fun p hp => ⟨(h2 p hp).1, (h2 p hp).2.1⟩, ?_⟩
  rw [ringOf_eq_iff h]
  intro p hp
  rw [cast_toNat (h2 p hp).1, (h2 p hp).2.2]

/-- `ringOf` only looks at the residues of the first `2^k` entries. -/
theorem ringOf_congr (h : NttPrime k q) {f g : Nat → Nat} (hfg : ∀ p, p < 2 ^ k → (f p : ZMod q) = (g p : ZMod q)) :
    ringOf k q f = ringOf k q g := by
  rw [ringOf_eq_iff h]
  intro p hp
  rw [slot_ringOf h g p hp, hfg p hp]

theorem ringOf_mod (h : NttPrime k q) (f : Nat → Nat) : ringOf k q (fun p => f p % q) = ringOf k q f :=
  ringOf_congr h (fun p _ => ZMod.natCast_mod _ _)

theorem ringOf_mul (h : NttPrime k q) (f g : Nat → Nat) :
    ringOf k q (fun p => f p * g p) = ringOf k q f * ringOf k q g := by
  rw [ringOf_eq_iff h]
  intro p hp
  rw [map_mul, slot_ringOf h f p hp, slot_ringOf h g p hp, Nat.cast_mul]

theorem ringOf_add (h : NttPrime k q) (f g : Nat → Nat) :
    ringOf k q (fun p => f p + g p) = ringOf k q f + ringOf k q g := by
  rw [ringOf_eq_iff h]
  intro p hp
  rw [map_add, slot_ringOf h f p hp, slot_ringOf h g p hp, Nat.cast_add]

theorem ringOf_const (h : NttPrime k q) (c : Nat) : ringOf k q (fun _ => c) = (c : Rq k q) := by
  rw [ringOf_eq_iff h]
  intro p hp
  rw [map_natCast]

theorem ringOf_zero (h : NttPrime k q) : ringOf k q (fun _ => 0) = 0 := by
  rw [ringOf_const h, Nat.cast_zero]

/-- `ringOf` is injective on reduced vectors. -/
theorem ringOf_inj (h : NttPrime k q) {f g : Nat → Nat} (hf : ∀ p, p < 2 ^ k → f p < q) (hg : ∀ p, p < 2 ^ k → g p < q)
    (e : ringOf k q f = ringOf k q g) : ∀ p, p < 2 ^ k → f p = g p := by
  intro p hp
  apply eq_of_cast (hf p hp) (hg p hp)
  rw [← slot_ringOf h f p hp, ← slot_ringOf h g p hp, e]

/-- `polyOf` is injective modulo `q`. -/
theorem polyOf_inj {x y : Nat → Int} (e : polyOf k q x = polyOf k q y) :
    ∀ i, i < 2 ^ k → x i % (q : Int) = y i % (q : Int) := by
  intro i hi
  have := congrFun (Nega.ev_injective (N := 2 ^ k) (by positivity) e) ⟨i, hi⟩
  exact (ZMod.intCast_eq_intCast_iff _ _ _).1 this

theorem polyOf_congr {x y : Nat → Int} (e : ∀ i, i < 2 ^ k → (x i : ZMod q) = (y i : ZMod q)) :
    polyOf k q x = polyOf k q y := by
  unfold polyOf
  congr 1
  funext i
  exact e i i.isLt

theorem polyOf_add (x y : Nat → Int) : polyOf k q (fun i => x i + y i) = polyOf k q x + polyOf k q y := by
  unfold polyOf
  rw [← Nega.ev_add]
  congr 1
  funext i
  push_cast
  rfl

theorem polyOf_sub (x y : Nat → Int) : polyOf k q (fun i => x i - y i) = polyOf k q x - polyOf k q y := by
  unfold polyOf
  rw [← Nega.ev_sub]
  congr 1
  funext i
  push_cast
  rfl

theorem cst_int (c : Int) : Nega.cst (2 ^ k) ((c : ZMod q)) = (c : Rq k q) := by
  unfold Nega.cst
  rw [map_intCast]

theorem polyOf_smul (c : Int) (x : Nat → Int) : polyOf k q (fun i => c * x i) = (c : Rq k q) * polyOf k q x := by
  unfold polyOf
  rw [← cst_int, ← Nega.ev_smul]
  congr 1
  funext i
  push_cast
  rfl

section flat
variable {kr kc : Nat}

theorem FourStep.nttPrime (h : FourStep kr kc q) : NttPrime (kr + kc) q :=
  ⟨h.prime, by rw [pow_add]; exact h.dvd⟩

theorem flat_lt {i j : Nat} (hi : i < 2 ^ kr) (hj : j < 2 ^ kc) : i * 2 ^ kc + j < 2 ^ (kr + kc) := by
  rw [pow_add]
  calc i * 2 ^ kc + j < (i + 1) * 2 ^ kc := by rw [Nat.succ_mul]; omega
    _ ≤ _ := Nat.mul_le_mul_right _ hi

/-- The four-step transform has the slot vector of the polynomial. -/
theorem nttFlat_ringOf (h : FourStep kr kc q) {T : Tables} (hT : precomputeTables (2 ^ kr) (2 ^ kc) q = .ok T)
    (a : Nat → Nat) (ha : ∀ i, i < 2 ^ (kr + kc) → a i < 2 ^ 32) :
    (∀ p, p < 2 ^ (kr + kc) → nttFlat (2 ^ kr) (2 ^ kc) q T a p < q) ∧
    ringOf (kr + kc) q (nttFlat (2 ^ kr) (2 ^ kc) q T a) = polyOf (kr + kc) q (fun i => (a i : Int)) := by
  have hp := FourStep.nttPrime h
  obtain ⟨T', h1, h2⟩ := C33_forward kr kc q h
  rw [hT] at h1
  cases h1
  rw [pow_add] at ha
  obtain ⟨ref, h3, h4⟩ := h2 a ha
  obtain ⟨r, g1, g2⟩ := ntt_run hp (fun i => (a i : Int))
  rw [pow_add] at g1
  rw [h3] at g1
  cases g1
  have key : ∀ p, p < 2 ^ (kr + kc) → (nttFlat (2 ^ kr) (2 ^ kc) q T a p : Int) = ref p := by
    intro p hp'
    rw [pow_add] at hp'
    have := h4 _ _ (grid_index hp').1 (grid_index hp').2
    rw [Nat.mul_comm, Nat.div_add_mod] at this
    exact this
  refine ⟨?_, ?_⟩
  · intro p hp'
    have h5 := g2 p hp'
    have := key p hp'
    omega
  · rw [ringOf_eq_iff hp]
    intro p hp'
    have h5 := g2 p hp'
    rw [← h5.2.2, ← key p hp', Int.cast_natCast]

/-- The four-step inverse transform gives the coefficients. -/
theorem inttFlat_ringOf (h : FourStep kr kc q) {T : Tables} (hT : precomputeTables (2 ^ kr) (2 ^ kc) q = .ok T)
    (f : Nat → Nat) (hf : ∀ i, i < 2 ^ (kr + kc) → f i < 2 ^ 32) :
    (∀ p, inttFlat (2 ^ kr) (2 ^ kc) q T f p < q) ∧
    polyOf (kr + kc) q (fun i => (inttFlat (2 ^ kr) (2 ^ kc) q T f i : Int)) = ringOf (kr + kc) q f := by
  have hp := FourStep.nttPrime h
  have h31 := h.good.lt
  obtain ⟨T', h1, h2⟩ := C33_inverse_right kr kc q h
  rw [hT] at h1
  cases h1
  have hv : ∀ i j, i < 2 ^ kr → j < 2 ^ kc → f (i * 2 ^ kc + j) < 2 ^ 32 := fun i j hi hj => hf _ (flat_lt hi hj)
  have hlt : ∀ t l, intt (2 ^ kr) (2 ^ kc) q T (fun i j => f (i * 2 ^ kc + j)) t l < q := by
    intro t l
    unfold intt
    obtain ⟨psi, T', p1, p2, p3, p4⟩ := tables_ok kr kc q h
    rw [hT] at p3
    cases p3
    refine (bat_step (2 ^ kr) q h.rows h.good _ (fun z => T.itf3 t z) ?_ (fun z => (p4.lt t z).2.2.2.2.2) h.rows32).1
    intro z hz
    refine lt_trans (mul_step q h.good _ (T.itf2 z l) ?_ (p4.lt z l).2.2.2.2.1).1 (by omega)
    exact (bat_step (2 ^ kc) q h.cols h.good _ (fun j => T.itf1 j l) (fun j hj => hv z j hz hj)
      (fun j => (p4.lt j l).2.2.2.1) h.cols32).1
  refine ⟨fun p => hlt _ _, ?_⟩
  obtain ⟨g1, g2⟩ := nttFlat_ringOf h hT (inttFlat (2 ^ kr) (2 ^ kc) q T f) (fun i _ => lt_trans (hlt _ _) (by omega))
  rw [← g2]
  apply ringOf_congr hp
  intro p hp'
  have hp2 := hp'
  rw [pow_add] at hp2
  have h3 := h2 _ hv (p / 2 ^ kc) (p % 2 ^ kc) (grid_index hp2).1 (grid_index hp2).2
  have e : nttFlat (2 ^ kr) (2 ^ kc) q T (inttFlat (2 ^ kr) (2 ^ kc) q T f) p =
      ntt (2 ^ kr) (2 ^ kc) q T (intt (2 ^ kr) (2 ^ kc) q T (fun i j => f (i * 2 ^ kc + j))) (p / 2 ^ kc) (p % 2 ^ kc) := by
    apply eq_of_cast (g1 p hp') (by rw [h3]; exact Nat.mod_lt _ h.prime.pos)
    obtain ⟨psi, T', p1, p2, p3, p4⟩ := tables_ok kr kc q h
    rw [hT] at p3
    cases p3
    have hψ : (psi : ZMod q) ^ (2 * (2 ^ kr * 2 ^ kc)) = 1 := by rw [← p2]; exact pow_orderOf_eq_one _
    rw [(ntt_eval h p4 hψ _ (fun i j _ _ => lt_trans (hlt i j) (by omega)) _ _ (grid_index hp2).1 (grid_index hp2).2).2]
    unfold nttFlat
    rw [(ntt_eval h p4 hψ (fun i j => inttFlat (2 ^ kr) (2 ^ kc) q T f (i * 2 ^ kc + j))
      (fun i j _ _ => lt_trans (hlt _ _) (by omega)) _ _ (grid_index hp2).1 (grid_index hp2).2).2]
    apply sum_congr rfl
    intro m hm
    unfold inttFlat
    have := (grid_index (mem_range.1 hm)).2
    have e1 : (m / 2 ^ kc * 2 ^ kc + m % 2 ^ kc) = m := by rw [Nat.mul_comm, Nat.div_add_mod]
    rw [e1]
  rw [e, h3, ZMod.natCast_mod]
  rw [Nat.mul_comm, Nat.div_add_mod]

end flat

end Verif.Slots
