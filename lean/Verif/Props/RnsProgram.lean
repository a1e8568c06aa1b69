import Verif.Model.RnsProgram
import Verif.Props.RnsJnp
import Verif.Props.RnsNtt

/-!
# C48 for whole programs: any sequence of operations on RNS polynomials computes in the ring
-/

namespace Verif.Props
open Verif.RnsNtt Verif.RnsProgram Verif.BitReversal Finset

/-! ## One row -/

theorem ringElt_map_mod (n q : Nat) (c : List Int) : ringElt n q (c.map (fun x => x % (q : Int))) = ringElt n q c := by
  unfold ringElt
  congr 1
  funext i
  rcases Nat.lt_or_ge i.val c.length with h | h
  · rw [List.getD_eq_getElem _ _ (by simpa using h), List.getElem_map, ZMod.intCast_mod, List.getD_eq_getElem _ _ h]
  · rw [List.getD_eq_default _ _ (by simpa using h), List.getD_eq_default _ _ h]

/-- The row of a linear combination, unreduced. -/
def linRow (n : Nat) (α β : Int) (a b : List Int) : List Int :=
  (List.range n).map (fun j => α * a.getD j 0 + β * b.getD j 0)

theorem linRow_getD (n : Nat) (α β : Int) (a b : List Int) (j : Nat) (hj : j < n) :
    (linRow n α β a b).getD j 0 = α * a.getD j 0 + β * b.getD j 0 := by
  unfold linRow
  rw [List.getD_eq_getElem _ _ (by simpa using hj), List.getElem_map, List.getElem_range]

theorem ringElt_linRow (n q : Nat) (α β : Int) (a b : List Int) :
    ringElt n q (linRow n α β a b) = (α : Nega.Q (ZMod q) n) * ringElt n q a + (β : Nega.Q (ZMod q) n) * ringElt n q b := by
  unfold ringElt
  have e : (fun i : Fin n => (((linRow n α β a b).getD i 0 : Int) : ZMod q)) =
      fun i : Fin n => (α : ZMod q) * (a.getD i 0 : ZMod q) + (β : ZMod q) * (b.getD i 0 : ZMod q) := by
    funext i
    rw [linRow_getD _ _ _ _ _ _ i.2]
    push_cast
    rfl
  rw [e, Nega.ev_add (fun i : Fin n => (α : ZMod q) * (a.getD i 0 : ZMod q)), Nega.ev_smul, Nega.ev_smul]
  have c : ∀ z : Int, Nega.cst n ((z : Int) : ZMod q) = ((z : Int) : Nega.Q (ZMod q) n) := fun z => map_intCast _ z
  rw [c, c]

theorem kept_getD {q m : Nat} {l : List Int} (h : Kept q m l) (i : Nat) (hi : i < m) :
    0 ≤ l.getD i 0 ∧ l.getD i 0 < q := by
  rw [List.getD_eq_getElem _ _ (by rw [h.1]; exact hi)]
  exact h.2 _ (List.getElem_mem _)

theorem map_mod_kept {q m : Nat} {l : List Int} (h : Kept q m l) : l.map (fun x => x % (q : Int)) = l :=
  map_mod_self l h.2

theorem backward_lin (k q : Nat) (hk : 1 ≤ k) (hq : q.Prime) (t : Ntt) (ht : mkNtt (2 ^ k) q = .ok t) (α β : Int)
    (a b : List Int) (ha : Kept q (2 ^ k) a) (hb : Kept q (2 ^ k) b) :
    ringElt (2 ^ k) q (backward t ((linRow (2 ^ k) α β a b).map (fun x => x % (q : Int)))) =
      (α : Nega.Q (ZMod q) (2 ^ k)) * ringElt (2 ^ k) q (backward t a) +
        (β : Nega.Q (ZMod q) (2 ^ k)) * ringElt (2 ^ k) q (backward t b) := by
  obtain ⟨ψ, -, hψ⟩ := C32_forward k q hk hq t ht
  obtain ⟨lA, -, -⟩ := backward_facts hk hq ht a ha.1
  obtain ⟨lB, -, -⟩ := backward_facts hk hq ht b hb.1
  have fA : forward t (backward t a) = a := by rw [C32_inverse_right k q hk hq t ht a ha.1, map_mod_kept ha]
  have fB : forward t (backward t b) = b := by rw [C32_inverse_right k q hk hq t ht b hb.1, map_mod_kept hb]
  set A := backward t a
  set B := backward t b
  have lC : (linRow (2 ^ k) α β A B).length = 2 ^ k := by simp [linRow]
  have ll : (linRow (2 ^ k) α β a b).length = 2 ^ k := by simp [linRow]
  obtain ⟨fl, fC⟩ := hψ (linRow (2 ^ k) α β A B) lC
  have key : forward t (linRow (2 ^ k) α β A B) = (linRow (2 ^ k) α β a b).map (fun x => x % (q : Int)) := by
    refine list_eq_of_cast _ _ fl ll (fun i hi => ⟨(fC i hi).1, (fC i hi).2.1⟩) (fun i hi => ?_)
    have e1 := ((hψ A lA).2 i hi).2.2
    have e2 := ((hψ B lB).2 i hi).2.2
    rw [fA] at e1
    rw [fB] at e2
    unfold Verif.RnsNtt.vec
    rw [(fC i hi).2.2, linRow_getD _ _ _ _ _ _ hi]
    push_cast
    rw [e1, e2, Finset.mul_sum, Finset.mul_sum, ← Finset.sum_add_distrib]
    refine Finset.sum_congr rfl fun j hj => ?_
    rw [linRow_getD _ _ _ _ _ _ (Finset.mem_range.1 hj)]
    push_cast
    ring
  rw [← key, C32_inverse_left k q hk hq t ht _ lC, ringElt_map_mod, ringElt_linRow]

theorem backward_prod (k q : Nat) (hk : 1 ≤ k) (hq : q.Prime) (t : Ntt) (ht : mkNtt (2 ^ k) q = .ok t)
    (a b : List Int) (ha : Kept q (2 ^ k) a) (hb : Kept q (2 ^ k) b) :
    ringElt (2 ^ k) q (backward t ((List.range (2 ^ k)).map (fun j => a.getD j 0 * b.getD j 0 % (q : Int)))) =
      ringElt (2 ^ k) q (backward t a) * ringElt (2 ^ k) q (backward t b) := by
  obtain ⟨lA, -, -⟩ := backward_facts hk hq ht a ha.1
  obtain ⟨lB, -, -⟩ := backward_facts hk hq ht b hb.1
  rw [← C32_product k q hk hq t ht _ _ lA lB, C32_inverse_right k q hk hq t ht a ha.1, map_mod_kept ha,
    C32_inverse_right k q hk hq t ht b hb.1, map_mod_kept hb]
  congr 2
  apply List.ext_getElem
  · simp [ha.1, hb.1]
  · intro i h1 h2
    rw [List.length_map, List.length_range] at h1
    rw [List.getElem_map, List.getElem_range, List.getElem_zipWith, List.getD_eq_getElem _ _ (by rw [ha.1]; exact h1),
      List.getD_eq_getElem _ _ (by rw [hb.1]; exact h1)]

/-! ## One polynomial -/

/-- What a list of ring elements, one for each modulus, is. -/
abbrev RingVals (n : Nat) (moduli : List Nat) := (i : Fin moduli.length) → Nega.Q (ZMod moduli[i]) n

/-- The polynomial represents the ring elements: its rows, once in coefficient form, are their reduced coefficients. -/
def Represents (n : Nat) (moduli : List Nat) (params : List Ntt) (p : Poly) (v : RingVals n moduli) : Prop :=
  p.degree = n ∧ p.moduli = moduli ∧ WellFormed p ∧ Reduced p ∧
    ∀ i : Fin moduli.length, ringElt n moduli[i] ((toCoeffsForm params p).coeffs.getD i []) = v i

theorem shaped_wf {n : Nat} {moduli : List Nat} {p : Poly} (h : Shaped n moduli p) : WellFormed p := by
  refine ⟨by rw [h.len, h.mod], fun row hr => ?_⟩
  obtain ⟨i, hi, rfl⟩ := List.getElem_of_mem hr
  have hi' : i < moduli.length := h.len ▸ hi
  rw [h.degree]
  exact (h.rows i _ _ (List.getElem?_eq_getElem hi) (List.getElem?_eq_getElem hi')).1

theorem shaped_reduced {n : Nat} {moduli : List Nat} {p : Poly} (h : Shaped n moduli p) : Reduced p := by
  intro i h1 h2 x hx
  have e := h.mod
  have h2' : i < moduli.length := e ▸ h2
  have := (h.rows i _ _ (List.getElem?_eq_getElem h1) (List.getElem?_eq_getElem h2')).2 x hx
  simpa [e] using this

theorem shaped_of {n : Nat} {moduli : List Nat} {p : Poly} (h1 : p.degree = n) (h2 : p.moduli = moduli)
    (h3 : WellFormed p) (h4 : Reduced p) : Shaped n moduli p := by
  refine ⟨h1, h2, by rw [h3.1, h2], fun i row q hr hq => ?_⟩
  obtain ⟨hi, rfl⟩ := List.getElem?_eq_some_iff.1 hr
  subst h2
  obtain ⟨hi', rfl⟩ := List.getElem?_eq_some_iff.1 hq
  exact ⟨by rw [← h1]; exact h3.2 _ (List.getElem_mem _), fun v hv => h4 i hi hi' v hv⟩

section
variable {k : Nat} {moduli : List Nat} {params : List Ntt}

/-- One limb in coefficient form. -/
theorem limb_eq (hp : mkParams (2 ^ k) moduli = .ok params) {p : Poly} (h : Shaped (2 ^ k) moduli p)
    (i : Nat) (hi : i < moduli.length) (hi' : i < params.length) :
    (toCoeffsForm params p).coeffs.getD i [] =
      if p.isNtt then backward params[i] (p.coeffs.getD i []) else p.coeffs.getD i [] := by
  unfold toCoeffsForm
  split
  · rw [List.getD_eq_getElem?_getD, mapRows_getElem backward params p.moduli.length p.coeffs (by rw [h.len, h.mod])
      (by rw [(mkParams_spec hp).1, h.mod]) i (by rw [h.mod]; exact hi), Option.getD_some,
      List.getD_eq_getElem _ _ (by rw [h.len]; exact hi)]
  · rfl

theorem row_kept {p : Poly} (h : Shaped (2 ^ k) moduli p) (i : Nat) (hi : i < moduli.length) :
    Kept moduli[i] (2 ^ k) (p.coeffs.getD i []) := by
  have hc : i < p.coeffs.length := by rw [h.len]; exact hi
  rw [List.getD_eq_getElem _ _ hc]
  exact h.rows i _ _ (List.getElem?_eq_getElem hc) (List.getElem?_eq_getElem hi)

theorem tabulate_getD (n : Nat) (f : Nat → Nat → Nat → Int) (i : Nat) (hi : i < moduli.length) :
    (tabulate n moduli f).getD i [] = (List.range n).map (fun j => f i j moduli[i]) := by
  rw [List.getD_eq_getElem?_getD, tabulate_row _ _ _ _ hi, Option.getD_some]

theorem represents_lin (hk : 1 ≤ k) (hprime : ∀ q ∈ moduli, q.Prime) (hp : mkParams (2 ^ k) moduli = .ok params)
    (α β : Int) {p o : Poly} {v w : RingVals (2 ^ k) moduli} (h : Represents (2 ^ k) moduli params p v)
    (h' : Represents (2 ^ k) moduli params o w) (hf : p.isNtt = o.isNtt) :
    Represents (2 ^ k) moduli params { degree := 2 ^ k, moduli := moduli, coeffs := tabulate (2 ^ k) moduli (fun i j qi =>
      (α * entry p i j + β * entry o i j) % qi), isNtt := p.isNtt } (fun i => (α : Nega.Q (ZMod moduli[i]) (2 ^ k)) * v i + (β : Nega.Q (ZMod moduli[i]) (2 ^ k)) * w i) := by
  have hs := shaped_of h.1 h.2.1 h.2.2.1 h.2.2.2.1
  have hs' := shaped_of h'.1 h'.2.1 h'.2.2.1 h'.2.2.2.1
  have hr := shaped_tabulate (n := 2 ^ k) (fun q hq => (hprime q hq).pos) p.isNtt
    (fun i j => α * entry p i j + β * entry o i j)
  refine ⟨rfl, rfl, shaped_wf hr, shaped_reduced hr, fun i => ?_⟩
  have hi' : i.val < params.length := by rw [(mkParams_spec hp).1]; exact i.2
  have ht := (mkParams_spec hp).2 i.val i.2 hi'
  have e1 := h.2.2.2.2 i
  have e2 := h'.2.2.2.2 i
  rw [limb_eq hp hs i i.2 hi'] at e1
  rw [limb_eq hp hs' i i.2 hi', ← hf] at e2
  rw [limb_eq hp hr i i.2 hi', tabulate_getD _ _ _ i.2]
  have e3 : (List.range (2 ^ k)).map (fun j => (α * entry p i j + β * entry o i j) % ((moduli[i.val] : Nat) : Int)) =
      (linRow (2 ^ k) α β (p.coeffs.getD i []) (o.coeffs.getD i [])).map (fun x => x % ((moduli[i.val] : Nat) : Int)) := by
    simp [linRow, entry]
  beta_reduce
  rw [e3, ← e1, ← e2]
  cases hn : p.isNtt with
  | true =>
    simp only [if_true]
    exact backward_lin k _ hk (hprime _ (List.getElem_mem _)) _ ht α β _ _ (row_kept hs i i.2) (row_kept hs' i i.2)
  | false =>
    simp only [Bool.false_eq_true, if_false]
    exact (ringElt_map_mod _ _ _).trans (ringElt_linRow _ _ _ _ _ _)

theorem represents_mul (hk : 1 ≤ k) (hprime : ∀ q ∈ moduli, q.Prime) (hp : mkParams (2 ^ k) moduli = .ok params)
    {p o : Poly} {v w : RingVals (2 ^ k) moduli} (h : Represents (2 ^ k) moduli params p v)
    (h' : Represents (2 ^ k) moduli params o w) (hf : p.isNtt = true) (hf' : o.isNtt = true) :
    Represents (2 ^ k) moduli params { degree := 2 ^ k, moduli := moduli, coeffs := tabulate (2 ^ k) moduli (fun i j qi =>
      (entry p i j * entry o i j) % qi), isNtt := true } (fun i => v i * w i) := by
  have hs := shaped_of h.1 h.2.1 h.2.2.1 h.2.2.2.1
  have hs' := shaped_of h'.1 h'.2.1 h'.2.2.1 h'.2.2.2.1
  have hr := shaped_tabulate (n := 2 ^ k) (fun q hq => (hprime q hq).pos) true
    (fun i j => entry p i j * entry o i j)
  refine ⟨rfl, rfl, shaped_wf hr, shaped_reduced hr, fun i => ?_⟩
  have hi' : i.val < params.length := by rw [(mkParams_spec hp).1]; exact i.2
  have ht := (mkParams_spec hp).2 i.val i.2 hi'
  have e1 := h.2.2.2.2 i
  have e2 := h'.2.2.2.2 i
  rw [limb_eq hp hs i i.2 hi', hf, if_pos rfl] at e1
  rw [limb_eq hp hs' i i.2 hi', hf', if_pos rfl] at e2
  beta_reduce
  rw [limb_eq hp hr i i.2 hi', tabulate_getD _ _ _ i.2, if_pos rfl, ← e1, ← e2]
  exact backward_prod k _ hk (hprime _ (List.getElem_mem _)) _ ht _ _ (row_kept hs i i.2) (row_kept hs' i i.2)

end

/-! ## Programs -/

/-- The value of an object; no program that runs asks for one that does not exist. -/
noncomputable def valAt {n : Nat} {moduli : List Nat} (vals : List (RingVals n moduli)) (a : Nat) : RingVals n moduli :=
  vals.getD a (fun _ => 0)

/-- One more object. -/
def pushVal {n : Nat} {moduli : List Nat} (vals : List (RingVals n moduli)) (v : RingVals n moduli) :
    List (RingVals n moduli) := vals ++ [v]

/-- The meaning of a program: the same statements in the product of the rings `(Z/q)[X]/(X^n+1)`; changing the form
changes nothing. -/
noncomputable def meaningStep (n : Nat) (moduli : List Nat) (vals : List (RingVals n moduli)) :
    Instr → List (RingVals n moduli)
  | .gen coeffs => pushVal vals (fun i => ringElt n moduli[i] coeffs)
  | .neg a => pushVal vals (fun i => -valAt vals a i)
  | .add a b => pushVal vals (fun i => valAt vals a i + valAt vals b i)
  | .sub a b => pushVal vals (fun i => valAt vals a i - valAt vals b i)
  | .mul a b => pushVal vals (fun i => valAt vals a i * valAt vals b i)
  | .toNtt _ => vals
  | .toCoeffs _ => vals

/-- Every object of the heap represents the value of the same number. -/
def HeapOk (n : Nat) (moduli : List Nat) (params : List Ntt) (heap : List Poly) (vals : List (RingVals n moduli)) : Prop :=
  List.Forall₂ (Represents n moduli params) heap vals

theorem look_ok {n : Nat} {moduli : List Nat} {params : List Ntt} {heap : List Poly} {vals : List (RingVals n moduli)}
    (h : HeapOk n moduli params heap vals) {a : Nat} {p : Poly} (hl : look heap a = .ok p) :
    a < heap.length ∧ heap[a]? = some p ∧ Represents n moduli params p (valAt vals a) := by
  unfold look at hl
  split at hl
  · rename_i x hx
    simp only [Except.ok.injEq] at hl
    subst hl
    obtain ⟨ha, rfl⟩ := List.getElem?_eq_some_iff.1 hx
    refine ⟨ha, hx, ?_⟩
    have hb : a < vals.length := by rw [← h.length_eq]; exact ha
    rw [valAt, List.getD_eq_getElem _ _ hb]
    exact (List.forall₂_iff_get.1 h).2 a ha hb
  · cases hl

theorem heapOk_push {n : Nat} {moduli : List Nat} {params : List Ntt} {heap : List Poly}
    {vals : List (RingVals n moduli)} (h : HeapOk n moduli params heap vals) {p : Poly} {v : RingVals n moduli}
    (hp : Represents n moduli params p v) : HeapOk n moduli params (heap ++ [p]) (vals ++ [v]) :=
  List.rel_append h (.cons hp .nil)

theorem heapOk_set {n : Nat} {moduli : List Nat} {params : List Ntt} {heap : List Poly}
    {vals : List (RingVals n moduli)} (h : HeapOk n moduli params heap vals) {p : Poly} (a : Nat)
    (hp : Represents n moduli params p (valAt vals a)) : HeapOk n moduli params (heap.set a p) vals := by
  rw [HeapOk, List.forall₂_iff_get]
  refine ⟨by rw [List.length_set]; exact h.length_eq, fun i h1 h2 => ?_⟩
  simp only [List.get_eq_getElem, List.getElem_set]
  split
  · rename_i e
    subst e
    rw [valAt, List.getD_eq_getElem _ _ h2] at hp
    exact hp
  · exact (List.forall₂_iff_get.1 h).2 i (by simpa using h1) h2

theorem represents_form {k : Nat} {moduli : List Nat} {params : List Ntt} (hk : 1 ≤ k)
    (hprime : ∀ q ∈ moduli, q.Prime) (hp : mkParams (2 ^ k) moduli = .ok params) {p : Poly}
    {v : RingVals (2 ^ k) moduli} (h : Represents (2 ^ k) moduli params p v) :
    Represents (2 ^ k) moduli params (toNttForm params p) v ∧ Represents (2 ^ k) moduli params (toCoeffsForm params p) v := by
  obtain ⟨h1, h2, h3, h4, h5⟩ := h
  have hs := shaped_of h1 h2 h3 h4
  have hm : ∀ q ∈ moduli, 0 < q := fun q hq => (hprime q hq).pos
  obtain ⟨f1, f2, f3, f4⟩ := C48_forms k hk p params h1 h3 h4 (by rw [h2]; exact hprime) (by rw [h1, h2]; exact hp)
  have sN : Shaped (2 ^ k) moduli (toNttForm params p) := by
    unfold toNttForm
    split
    · exact hs
    · exact shaped_mapRows hm hp forward (fun t m c hq hk => kept_forward t hq c hk) p hs true
  have sC : Shaped (2 ^ k) moduli (toCoeffsForm params p) := by
    unfold toCoeffsForm
    split
    · exact shaped_mapRows hm hp backward (fun t m c hq hk => kept_backward t hq c hk) p hs false
    · exact hs
  refine ⟨⟨sN.degree, sN.mod, shaped_wf sN, shaped_reduced sN, fun i => ?_⟩,
    ⟨sC.degree, sC.mod, shaped_wf sC, shaped_reduced sC, fun i => by rw [f4]; exact h5 i⟩⟩
  rw [← h5 i]
  cases hn : p.isNtt with
  | true => simp [toNttForm, hn]
  | false => rw [(f1 hn).2]; simp [toCoeffsForm, hn]

theorem step_ok {k : Nat} {moduli : List Nat} {params : List Ntt} (hk : 1 ≤ k) (hprime : ∀ q ∈ moduli, q.Prime)
    (hp : mkParams (2 ^ k) moduli = .ok params) {heap heap' : List Poly} {vals : List (RingVals (2 ^ k) moduli)}
    (h : HeapOk (2 ^ k) moduli params heap vals) (s : Instr) (hg : ∀ coeffs, s = .gen coeffs → coeffs.length = 2 ^ k)
    (hs : step (2 ^ k) moduli params heap s = .ok heap') :
    HeapOk (2 ^ k) moduli params heap' (meaningStep (2 ^ k) moduli vals s) := by
  have hm : ∀ q ∈ moduli, 0 < q := fun q hq => (hprime q hq).pos
  cases s with
  | gen coeffs =>
    simp only [step, Except.ok.injEq] at hs
    subst hs
    refine heapOk_push h ?_
    have sG := built_shaped hm hp (BuiltPoly.gen (params := params) coeffs (hg _ rfl))
    refine ⟨rfl, rfl, shaped_wf sG, shaped_reduced sG, fun i => ?_⟩
    have e : (toCoeffsForm params (genRnsPolynomial (2 ^ k) coeffs moduli)).coeffs.getD i [] =
        coeffs.map (fun x => x % ((moduli[i.val] : Nat) : Int)) := by
      simp [toCoeffsForm, genRnsPolynomial, List.getD_eq_getElem?_getD]
    rw [e]
    exact ringElt_map_mod _ _ _
  | neg a =>
    simp only [step, bind, Except.bind, pure, Except.pure] at hs
    split at hs
    · cases hs
    · rename_i p hl
      simp only [Except.ok.injEq] at hs
      subst hs
      obtain ⟨-, -, hr⟩ := look_ok h hl
      refine heapOk_push h ?_
      have := represents_lin hk hprime hp (-1) 0 hr hr rfl
      obtain ⟨e1, e2, -⟩ := hr
      unfold RnsNtt.neg
      cases p
      simp only at e1 e2
      subst e1 e2
      simpa using this
  | add a b =>
    simp only [step, bind, Except.bind, pure, Except.pure] at hs
    split at hs
    · cases hs
    · rename_i p hl
      split at hs
      · cases hs
      · rename_i o hl'
        split at hs
        · cases hs
        · rename_i r ha
          simp only [Except.ok.injEq] at hs
          subst hs
          obtain ⟨-, -, hr⟩ := look_ok h hl
          obtain ⟨-, -, hr'⟩ := look_ok h hl'
          refine heapOk_push h ?_
          unfold RnsNtt.add at ha
          split at ha
          · cases ha
          · rename_i hc
            simp only [Except.ok.injEq] at ha
            subst ha
            have hc' := (compatible_iff p o).1 (by simpa using hc)
            have := represents_lin hk hprime hp 1 1 hr hr' hc'.2.2.2
            obtain ⟨e1, e2, -⟩ := hr
            cases p
            simp only at e1 e2
            subst e1 e2
            simpa using this
  | sub a b =>
    simp only [step, bind, Except.bind, pure, Except.pure] at hs
    split at hs
    · cases hs
    · rename_i p hl
      split at hs
      · cases hs
      · rename_i o hl'
        split at hs
        · cases hs
        · rename_i r ha
          simp only [Except.ok.injEq] at hs
          subst hs
          obtain ⟨-, -, hr⟩ := look_ok h hl
          obtain ⟨-, -, hr'⟩ := look_ok h hl'
          refine heapOk_push h ?_
          unfold RnsNtt.sub at ha
          split at ha
          · cases ha
          · rename_i hc
            simp only [Except.ok.injEq] at ha
            subst ha
            have hc' := (compatible_iff p o).1 (by simpa using hc)
            have := represents_lin hk hprime hp 1 (-1) hr hr' hc'.2.2.2
            obtain ⟨e1, e2, -⟩ := hr
            cases p
            simp only at e1 e2
            subst e1 e2
            simpa [sub_eq_add_neg] using this
  | mul a b =>
    simp only [step, bind, Except.bind, pure, Except.pure] at hs
    split at hs
    · cases hs
    · rename_i p hl
      split at hs
      · cases hs
      · rename_i o hl'
        split at hs
        · cases hs
        · rename_i r ha
          simp only [Except.ok.injEq] at hs
          subst hs
          obtain ⟨-, -, hr⟩ := look_ok h hl
          obtain ⟨-, -, hr'⟩ := look_ok h hl'
          refine heapOk_push h ?_
          unfold RnsNtt.mul at ha
          split at ha
          · cases ha
          · split at ha
            · cases ha
            · rename_i hc hn
              simp only [Except.ok.injEq] at ha
              subst ha
              have hn' : p.isNtt = true ∧ o.isNtt = true := by simpa using hn
              have := represents_mul hk hprime hp hr hr' hn'.1 hn'.2
              obtain ⟨e1, e2, -⟩ := hr
              cases p
              simp only at e1 e2
              subst e1 e2
              exact this
  | toNtt a =>
    simp only [step, bind, Except.bind, pure, Except.pure] at hs
    split at hs
    · cases hs
    · rename_i p hl
      simp only [Except.ok.injEq] at hs
      subst hs
      obtain ⟨-, -, hr⟩ := look_ok h hl
      exact heapOk_set h a (represents_form hk hprime hp hr).1
  | toCoeffs a =>
    simp only [step, bind, Except.bind, pure, Except.pure] at hs
    split at hs
    · cases hs
    · rename_i p hl
      simp only [Except.ok.injEq] at hs
      subst hs
      obtain ⟨-, -, hr⟩ := look_ok h hl
      exact heapOk_set h a (represents_form hk hprime hp hr).2

theorem run_ok {k : Nat} {moduli : List Nat} {params : List Ntt} (hk : 1 ≤ k) (hprime : ∀ q ∈ moduli, q.Prime)
    (hp : mkParams (2 ^ k) moduli = .ok params) (prog : List Instr)
    (hg : ∀ coeffs, .gen coeffs ∈ prog → coeffs.length = 2 ^ k) :
    ∀ (heap heap' : List Poly) (vals : List (RingVals (2 ^ k) moduli)), HeapOk (2 ^ k) moduli params heap vals →
      run (2 ^ k) moduli params heap prog = .ok heap' →
      HeapOk (2 ^ k) moduli params heap' (prog.foldl (meaningStep (2 ^ k) moduli) vals) := by
  induction prog with
  | nil =>
    intro heap heap' vals h hr
    simp only [run, Except.ok.injEq] at hr
    subst hr
    exact h
  | cons s rest ih =>
    intro heap heap' vals h hr
    simp only [run, bind, Except.bind] at hr
    split at hr
    · cases hr
    · rename_i heap1 hs
      refine ih (fun c hc => hg c (by simp [hc])) heap1 heap' _ ?_ hr
      exact step_ok hk hprime hp h s (fun c hc => hg c (by simp [hc])) hs

/-- **C48, for whole programs.** After any sequence of statements that does not raise, started without objects, every
object has the reduced coefficients of the value that the same statements compute in the rings
`(Z/q)[X]/(X^n + 1)`, one for each modulus; changing the form of an object, which happens in place, changes no
value. -/
theorem C48_program (k : Nat) (hk : 1 ≤ k) (moduli : List Nat) (hprime : ∀ q ∈ moduli, q.Prime) (params : List Ntt)
    (hp : mkParams (2 ^ k) moduli = .ok params) (prog : List Instr)
    (hg : ∀ coeffs, .gen coeffs ∈ prog → coeffs.length = 2 ^ k) (heap : List Poly)
    (hr : run (2 ^ k) moduli params [] prog = .ok heap) :
    heap.length = (prog.foldl (meaningStep (2 ^ k) moduli) []).length ∧
    ∀ (a : Nat) (p : Poly), heap[a]? = some p →
      p.degree = 2 ^ k ∧ p.moduli = moduli ∧ WellFormed p ∧ Reduced p ∧
      ∀ i : Fin moduli.length, ringElt (2 ^ k) moduli[i] ((toCoeffsForm params p).coeffs.getD i []) =
        valAt (prog.foldl (meaningStep (2 ^ k) moduli) []) a i := by
  have h := run_ok hk hprime hp prog hg [] heap [] .nil hr
  refine ⟨h.length_eq, fun a p ha => ?_⟩
  obtain ⟨h1, rfl⟩ := List.getElem?_eq_some_iff.1 ha
  exact (look_ok h (by unfold look; rw [ha])).2.2

/-- Reduced rows of the right length are determined by the ring element. -/
theorem ringElt_inj {n q : Nat} (hn : 0 < n) {a b : List Int} (ha : Kept q n a) (hb : Kept q n b)
    (h : ringElt n q a = ringElt n q b) : a = b := by
  have e := Nega.ev_injective hn h
  apply List.ext_getElem
  · rw [ha.1, hb.1]
  · intro i h1 h2
    have hi : i < n := ha.1 ▸ h1
    have := congrFun e ⟨i, hi⟩
    simp only [List.getD_eq_getElem _ _ h1, List.getD_eq_getElem _ _ h2] at this
    rw [ZMod.intCast_eq_intCast_iff'] at this
    have h3 := ha.2 _ (List.getElem_mem h1)
    have h4 := hb.2 _ (List.getElem_mem h2)
    rwa [Int.emod_eq_of_lt h3.1 h3.2, Int.emod_eq_of_lt h4.1 h4.2] at this

/-- **C48, for whole programs: one result.** If two programs (or two places of one program) compute the same ring
elements, the two objects are equal once both are in coefficient form, whatever forms were used on the way. -/
theorem C48_program_equal (k : Nat) (hk : 1 ≤ k) (moduli : List Nat) (hprime : ∀ q ∈ moduli, q.Prime)
    (params : List Ntt) (hp : mkParams (2 ^ k) moduli = .ok params) (prog prog' : List Instr)
    (hg : ∀ coeffs, .gen coeffs ∈ prog → coeffs.length = 2 ^ k)
    (hg' : ∀ coeffs, .gen coeffs ∈ prog' → coeffs.length = 2 ^ k) (heap heap' : List Poly)
    (hr : run (2 ^ k) moduli params [] prog = .ok heap) (hr' : run (2 ^ k) moduli params [] prog' = .ok heap')
    (a b : Nat) (p o : Poly) (ha : heap[a]? = some p) (hb : heap'[b]? = some o)
    (hv : valAt (prog.foldl (meaningStep (2 ^ k) moduli) []) a = valAt (prog'.foldl (meaningStep (2 ^ k) moduli) []) b) :
    toCoeffsForm params p = toCoeffsForm params o := by
  have h1 : Represents (2 ^ k) moduli params p _ := (C48_program k hk moduli hprime params hp prog hg heap hr).2 a p ha
  have h2 : Represents (2 ^ k) moduli params o _ :=
    (C48_program k hk moduli hprime params hp prog' hg' heap' hr').2 b o hb
  have h3 := (represents_form hk hprime hp h1).2
  have h4 := (represents_form hk hprime hp h2).2
  have s3 := shaped_of h3.1 h3.2.1 h3.2.2.1 h3.2.2.2.1
  have s4 := shaped_of h4.1 h4.2.1 h4.2.2.1 h4.2.2.2.1
  have f : ∀ r : Poly, (toCoeffsForm params r).isNtt = false := by
    intro r; unfold toCoeffsForm; split <;> simp_all
  have hc : (toCoeffsForm params p).coeffs = (toCoeffsForm params o).coeffs := by
    apply List.ext_getElem
    · rw [s3.len, s4.len]
    · intro i l1 l2
      have hi : i < moduli.length := s3.len ▸ l1
      have k1 := row_kept s3 i hi
      have k2 := row_kept s4 i hi
      have e1 := h1.2.2.2.2 ⟨i, hi⟩
      have e2 := h2.2.2.2.2 ⟨i, hi⟩
      have := ringElt_inj (by positivity) k1 k2 (e1.trans ((congrFun hv ⟨i, hi⟩).trans e2.symm))
      rwa [List.getD_eq_getElem _ _ l1, List.getD_eq_getElem _ _ l2] at this
  have e1 := s3.degree.trans s4.degree.symm
  have e2 := s3.mod.trans s4.mod.symm
  have e3 := (f p).trans (f o).symm
  cases h5 : toCoeffsForm params p
  cases h6 : toCoeffsForm params o
  simp only [h5, h6] at hc e1 e2 e3
  simp [hc, e1, e2, e3]

/-! ## When a program raises -/

/-- The forms of the objects: `none` if the statement is not well formed. -/
def formStep (forms : List Bool) : Instr → Option (List Bool)
  | .gen _ => some (forms ++ [false])
  | .neg a => (forms[a]?).map (fun f => forms ++ [f])
  | .add a b => if forms[a]?.isSome ∧ forms[a]? = forms[b]? then some (forms ++ [forms.getD a false]) else none
  | .sub a b => if forms[a]?.isSome ∧ forms[a]? = forms[b]? then some (forms ++ [forms.getD a false]) else none
  | .mul a b => if forms[a]? = some true ∧ forms[b]? = some true then some (forms ++ [true]) else none
  | .toNtt a => if a < forms.length then some (forms.set a true) else none
  | .toCoeffs a => if a < forms.length then some (forms.set a false) else none

/-- All objects have the shape of the parameters and the listed forms. -/
def FormOk (n : Nat) (moduli : List Nat) (heap : List Poly) (forms : List Bool) : Prop :=
  forms = heap.map (fun p => p.isNtt) ∧ ∀ p ∈ heap, p.degree = n ∧ p.moduli = moduli ∧ p.coeffs.length = moduli.length

theorem form_step {n : Nat} {moduli : List Nat} (params : List Ntt) {heap : List Poly} {forms : List Bool}
    (h : FormOk n moduli heap forms) (s : Instr) :
    match step n moduli params heap s, formStep forms s with
    | .ok heap', some forms' => FormOk n moduli heap' forms'
    | .error _, none => True
    | _, _ => False := by
  obtain ⟨rfl, hs⟩ := h
  have get : ∀ a : Nat, (heap.map (fun p => p.isNtt))[a]? = (heap[a]?).map (fun p => p.isNtt) := fun a => by simp
  have push : ∀ (p : Poly), (p.degree = n ∧ p.moduli = moduli ∧ p.coeffs.length = moduli.length) →
      FormOk n moduli (heap ++ [p]) (heap.map (fun p => p.isNtt) ++ [p.isNtt]) := by
    intro p hp
    refine ⟨by simp, fun r hr => ?_⟩
    rcases List.mem_append.1 hr with hr | hr
    · exact hs r hr
    · simp only [List.mem_singleton] at hr
      subst hr; exact hp
  have put : ∀ (a : Nat) (p : Poly), (p.degree = n ∧ p.moduli = moduli ∧ p.coeffs.length = moduli.length) →
      FormOk n moduli (heap.set a p) ((heap.map (fun p => p.isNtt)).set a p.isNtt) := by
    intro a p hp
    refine ⟨by rw [List.map_set], fun r hr => ?_⟩
    rcases List.mem_or_eq_of_mem_set hr with hr | rfl
    · exact hs r hr
    · exact hp
  have mem : ∀ {a : Nat} {p : Poly}, heap[a]? = some p → p ∈ heap := fun ha => List.mem_of_getElem? ha
  have lt : ∀ {a : Nat} {p : Poly}, heap[a]? = some p → a < heap.length := fun ha => (List.getElem?_eq_some_iff.1 ha).1
  have compat : ∀ {p o : Poly}, p ∈ heap → o ∈ heap → (compatible p o = true ↔ p.isNtt = o.isNtt) := by
    intro p o hp ho
    rw [compatible_iff]
    obtain ⟨a1, a2, a3⟩ := hs p hp
    obtain ⟨b1, b2, b3⟩ := hs o ho
    constructor
    · exact fun h => h.2.2.2
    · exact fun h => ⟨by rw [a1, b1], by rw [a2, b2], by rw [a3, b3], h⟩
  have tab : ∀ {p : Poly} (f : Nat → Nat → Nat → Int), p ∈ heap →
      (tabulate p.degree p.moduli f).length = moduli.length := by
    intro p f hp
    simp [tabulate, (hs p hp).2.1]
  cases s with
  | gen coeffs =>
    have := push (genRnsPolynomial n coeffs moduli) ⟨rfl, rfl, by simp [genRnsPolynomial]⟩
    simpa [step, formStep, genRnsPolynomial] using this
  | neg a =>
    cases ha : heap[a]? with
    | none => simp [step, formStep, look, ha, get, bind, Except.bind]
    | some p =>
      have := push (RnsNtt.neg p) ⟨(hs p (mem ha)).1, (hs p (mem ha)).2.1, tab _ (mem ha)⟩
      simpa [step, formStep, look, ha, get, bind, Except.bind, pure, Except.pure, RnsNtt.neg] using this
  | add a b =>
    cases ha : heap[a]? with
    | none => simp [step, formStep, look, ha, get, bind, Except.bind]
    | some p =>
      cases hb : heap[b]? with
      | none => simp [step, formStep, look, ha, hb, get, bind, Except.bind]
      | some o =>
        have hg : (heap.map (fun p => p.isNtt)).getD a false = p.isNtt := by
          rw [List.getD_eq_getElem?_getD, get, ha]; rfl
        by_cases he : p.isNtt = o.isNtt
        · have hc := (compat (mem ha) (mem hb)).2 he
          have := push { p with coeffs := tabulate p.degree p.moduli (fun i j qi => (entry p i j + entry o i j) % qi) }
            ⟨(hs p (mem ha)).1, (hs p (mem ha)).2.1, tab _ (mem ha)⟩
          simp only [step, formStep, look, ha, hb, get, bind, Except.bind, pure, Except.pure, RnsNtt.add, hc, hg,
            Option.map_some, Option.isSome_some, he, and_self, if_true, Bool.not_true, Bool.false_eq_true, if_false]
          rw [← he]; exact this
        · have hc : compatible p o = false := by
            rw [Bool.eq_false_iff]; exact fun h => he ((compat (mem ha) (mem hb)).1 h)
          simp [step, formStep, look, ha, hb, get, bind, Except.bind, RnsNtt.add, hc, he]
  | sub a b =>
    cases ha : heap[a]? with
    | none => simp [step, formStep, look, ha, get, bind, Except.bind]
    | some p =>
      cases hb : heap[b]? with
      | none => simp [step, formStep, look, ha, hb, get, bind, Except.bind]
      | some o =>
        have hg : (heap.map (fun p => p.isNtt)).getD a false = p.isNtt := by
          rw [List.getD_eq_getElem?_getD, get, ha]; rfl
        by_cases he : p.isNtt = o.isNtt
        · have hc := (compat (mem ha) (mem hb)).2 he
          have := push { p with coeffs := tabulate p.degree p.moduli (fun i j qi => (entry p i j - entry o i j) % qi) }
            ⟨(hs p (mem ha)).1, (hs p (mem ha)).2.1, tab _ (mem ha)⟩
          simp only [step, formStep, look, ha, hb, get, bind, Except.bind, pure, Except.pure, RnsNtt.sub, hc, hg,
            Option.map_some, Option.isSome_some, he, and_self, if_true, Bool.not_true, Bool.false_eq_true, if_false]
          rw [← he]; exact this
        · have hc : compatible p o = false := by
            rw [Bool.eq_false_iff]; exact fun h => he ((compat (mem ha) (mem hb)).1 h)
          simp [step, formStep, look, ha, hb, get, bind, Except.bind, RnsNtt.sub, hc, he]
  | mul a b =>
    cases ha : heap[a]? with
    | none => simp [step, formStep, look, ha, get, bind, Except.bind]
    | some p =>
      cases hb : heap[b]? with
      | none => simp [step, formStep, look, ha, hb, get, bind, Except.bind]
      | some o =>
        by_cases he : p.isNtt = true ∧ o.isNtt = true
        · have hc := (compat (mem ha) (mem hb)).2 (by rw [he.1, he.2])
          have := push { p with coeffs := tabulate p.degree p.moduli (fun i j qi => (entry p i j * entry o i j) % qi), isNtt := true }
            ⟨(hs p (mem ha)).1, (hs p (mem ha)).2.1, tab _ (mem ha)⟩
          simpa [step, formStep, look, ha, hb, get, bind, Except.bind, pure, Except.pure, RnsNtt.mul, hc, he.1, he.2]
            using this
        · cases hc : compatible p o with
          | false => simp [step, formStep, look, ha, hb, get, bind, Except.bind, RnsNtt.mul, hc, he]
          | true =>
            have h2 : (!p.isNtt || !o.isNtt) = true := by
              cases hp' : p.isNtt <;> cases ho' : o.isNtt <;> simp_all
            simp [step, formStep, look, ha, hb, get, bind, Except.bind, RnsNtt.mul, hc, he, h2]
  | toNtt a =>
    cases ha : heap[a]? with
    | none =>
      have : ¬ a < heap.length := by rw [List.getElem?_eq_none_iff] at ha; omega
      simp [step, formStep, look, ha, bind, Except.bind, this]
    | some p =>
      have h1 := hs p (mem ha)
      have := put a (toNttForm params p) (by unfold toNttForm; split <;> simp [h1, mapRows])
      have h2 : (toNttForm params p).isNtt = true := by unfold toNttForm; split <;> simp_all
      rw [h2] at this
      simp only [step, formStep, look, ha, bind, Except.bind, pure, Except.pure, List.length_map, lt ha, if_true]
      exact this
  | toCoeffs a =>
    cases ha : heap[a]? with
    | none =>
      have : ¬ a < heap.length := by rw [List.getElem?_eq_none_iff] at ha; omega
      simp [step, formStep, look, ha, bind, Except.bind, this]
    | some p =>
      have h1 := hs p (mem ha)
      have := put a (toCoeffsForm params p) (by unfold toCoeffsForm; split <;> simp [h1, mapRows])
      have h2 : (toCoeffsForm params p).isNtt = false := by unfold toCoeffsForm; split <;> simp_all
      rw [h2] at this
      simp only [step, formStep, look, ha, bind, Except.bind, pure, Except.pure, List.length_map, lt ha, if_true]
      exact this

theorem run_forms {n : Nat} {moduli : List Nat} (params : List Ntt) (prog : List Instr) :
    ∀ (heap : List Poly) (forms : List Bool), FormOk n moduli heap forms →
      ((∃ heap', run n moduli params heap prog = .ok heap') ↔ (prog.foldlM formStep forms).isSome) := by
  induction prog with
  | nil => intro heap forms _; simp [run]
  | cons s rest ih =>
    intro heap forms h
    have := form_step params h s
    rw [List.foldlM_cons]
    simp only [run, bind, Except.bind]
    cases h1 : step n moduli params heap s with
    | error e =>
      cases h2 : formStep forms s with
      | none => simp
      | some f => rw [h1, h2] at this; exact this.elim
    | ok heap1 =>
      cases h2 : formStep forms s with
      | none => rw [h1, h2] at this; exact this.elim
      | some f => rw [h1, h2] at this; exact ih heap1 f this

/-- **C48, for whole programs: when they raise.** A program runs to the end exactly if every object it names exists,
the operands of sums and differences have the same form and the factors of products are in the transformed form. -/
theorem C48_program_runs (n : Nat) (moduli : List Nat) (params : List Ntt) (prog : List Instr) :
    (∃ heap, run n moduli params [] prog = .ok heap) ↔ (prog.foldlM formStep []).isSome :=
  run_forms params prog [] [] ⟨rfl, by simp⟩

/-- A program that multiplies, adds in both forms and converts in place: it runs, and its last object is the product
of the first two plus the first. -/
def sampleProg : List Instr :=
  [.gen [1, -2, 3, 40], .gen [0, 5, 0, 1], .toNtt 0, .toNtt 1, .mul 0 1, .add 2 0, .toCoeffs 3]

example : ∃ params heap, mkParams (2 ^ 2) [17, 41] = .ok params ∧ run (2 ^ 2) [17, 41] params [] sampleProg = .ok heap ∧
    ∀ p, heap[3]? = some p → ∀ i : Fin 2, ringElt (2 ^ 2) [17, 41][i] ((toCoeffsForm params p).coeffs.getD i []) =
      ringElt (2 ^ 2) [17, 41][i] [1, -2, 3, 40] * ringElt (2 ^ 2) [17, 41][i] [0, 5, 0, 1] +
        ringElt (2 ^ 2) [17, 41][i] [1, -2, 3, 40] := by
  have h : (mkParams (2 ^ 2) [17, 41]).toOption.isSome := by decide +kernel
  cases hp : mkParams (2 ^ 2) [17, 41] with
  | error e => rw [hp] at h; cases h
  | ok params =>
    obtain ⟨heap, hr⟩ := (C48_program_runs (2 ^ 2) [17, 41] params sampleProg).2 (by decide +kernel)
    refine ⟨params, heap, rfl, hr, fun p h3 i => ?_⟩
    have := (C48_program 2 (by norm_num) [17, 41] (by simp; decide) params hp sampleProg (by simp [sampleProg]) heap hr).2 3 p h3
    exact this.2.2.2.2 i

/-- The sum taken in the transformed form and in coefficient form is one object. -/
example (params : List Ntt) (hp : mkParams (2 ^ 2) [17, 41] = .ok params) (heap heap' : List Poly)
    (hr : run (2 ^ 2) [17, 41] params [] [.gen [1, -2, 3, 40], .gen [0, 5, 0, 1], .toNtt 0, .toNtt 1, .add 0 1] = .ok heap)
    (hr' : run (2 ^ 2) [17, 41] params [] [.gen [1, -2, 3, 40], .gen [0, 5, 0, 1], .add 0 1] = .ok heap')
    (p o : Poly) (h : heap[2]? = some p) (h' : heap'[2]? = some o) : toCoeffsForm params p = toCoeffsForm params o :=
  C48_program_equal 2 (by norm_num) [17, 41] (by simp; decide) params hp _ _ (by simp) (by simp) heap heap' hr hr' 2 2 p o
    h h' rfl

/-- A product of polynomials in coefficient form raises. -/
example : ¬ ∃ heap, run 4 [17] [] [] [.gen [1, 2, 3, 4], .mul 0 0] = .ok heap := by
  rw [C48_program_runs]; decide

end Verif.Props
