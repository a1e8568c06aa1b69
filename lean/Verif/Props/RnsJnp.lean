import Verif.Model.RnsJnp
import Mathlib.Tactic.Linarith
import Mathlib.Tactic.NormNum

/-!
# C112: RNS polynomials survive the conversion to a JAX array and back
-/

namespace Verif.Props
open Verif.RnsNtt Verif.RnsJnp Verif.BitReversal
open Verif.X64 (wide)

/-- The round trip a user writes: convert, and convert back with the degree, moduli and form of the polynomial. -/
def jnpRoundTrip (x64 : Bool) (S : Store (wide x64)) (p : Poly) : Except String Poly :=
  (toJnpArray x64 S p).map (fun a => fromJnpArray p.degree a p.moduli p.isNtt)

theorem mapM_option_id {α : Type} (f : α → Option α) : ∀ l : List α, l.mapM f = some l ↔ ∀ a ∈ l, f a = some a := by
  intro l
  induction l with
  | nil => simp
  | cons a l ih =>
    rw [List.mapM_cons]
    constructor
    · intro h
      cases ha : f a with
      | none => simp [ha] at h
      | some b =>
        cases hl : l.mapM f with
        | none => simp [ha, hl] at h
        | some m =>
          simp only [ha, hl, bind, Option.bind, pure, Option.some.injEq, List.cons.injEq] at h
          intro x hx
          rcases List.mem_cons.1 hx with rfl | hx
          · rw [ha, h.1]
          · exact ih.1 (by rw [hl, h.2]) x hx
    · intro h
      rw [h a (by simp), ih.2 (fun x hx => h x (by simp [hx]))]
      rfl

theorem put_eq_iff {w : Nat} (S : Store w) (v : Int) : S.put v = some v ↔ 0 ≤ v ∧ v < 2 ^ w :=
  ⟨fun h => S.inRange v v h, fun h => S.exact v h.1 h.2⟩

/-- **C112.** Whatever the library does with integers that do not fit, the round trip gives back the polynomial
if and only if its rows have one length and every coefficient fits the stored word: 64 bits with the flag, 32
without it. -/
theorem C112_round_trip_iff (x64 : Bool) (S : Store (wide x64)) (p : Poly) :
    jnpRoundTrip x64 S p = .ok p ↔
      (∃ n, ∀ row ∈ p.coeffs, row.length = n) ∧ ∀ row ∈ p.coeffs, ∀ v ∈ row, 0 ≤ v ∧ v < 2 ^ wide x64 := by
  unfold jnpRoundTrip toJnpArray
  by_cases hr : p.coeffs.all (fun row => row.length == (p.coeffs.headD []).length)
  · have hr' : ∃ n, ∀ row ∈ p.coeffs, row.length = n :=
      ⟨_, fun row h => by simpa using List.all_eq_true.1 hr row h⟩
    rw [if_pos hr]
    have key : (p.coeffs.mapM (fun row => row.mapM S.put) = some p.coeffs) ↔
        ∀ row ∈ p.coeffs, ∀ v ∈ row, 0 ≤ v ∧ v < 2 ^ wide x64 := by
      rw [mapM_option_id]
      refine forall₂_congr fun row _ => ?_
      rw [mapM_option_id]
      exact forall₂_congr fun v _ => put_eq_iff S v
    cases h : p.coeffs.mapM (fun row => row.mapM S.put) with
    | none =>
      rw [h] at key
      constructor
      · intro e; cases e
      · intro e; exact absurd (key.2 e.2) (by simp)
    | some a =>
      rw [h] at key
      constructor
      · intro e
        refine ⟨hr', key.1 ?_⟩
        simp only [Except.map, Except.ok.injEq] at e
        rw [← congrArg Poly.coeffs e]; rfl
      · intro e
        have := key.2 e.2
        simp only [Option.some.injEq] at this
        subst this
        rfl
  · rw [if_neg hr]
    constructor
    · intro e; cases e
    · rintro ⟨⟨n, hn⟩, _⟩
      refine absurd (List.all_eq_true.2 fun row h => ?_) hr
      cases hc : p.coeffs with
      | nil => simp [hc] at h
      | cons r l => simp [hn row h, hn r (by simp [hc])]

/-! ## Polynomials built with the functions of `rns.py` -/

/-- The polynomials over one degree and one list of moduli that the functions of `rns.py` build: `params` are the
transforms of `RnsParams` for these moduli. -/
inductive BuiltPoly (n : Nat) (moduli : List Nat) (params : List Ntt) : Poly → Prop
  | gen (coeffs : List Int) : coeffs.length = n → BuiltPoly n moduli params (genRnsPolynomial n coeffs moduli)
  | neg (p : Poly) : BuiltPoly n moduli params p → BuiltPoly n moduli params (neg p)
  | add (p o r : Poly) : BuiltPoly n moduli params p → BuiltPoly n moduli params o → add p o = .ok r →
      BuiltPoly n moduli params r
  | sub (p o r : Poly) : BuiltPoly n moduli params p → BuiltPoly n moduli params o → sub p o = .ok r →
      BuiltPoly n moduli params r
  | mul (p o r : Poly) : BuiltPoly n moduli params p → BuiltPoly n moduli params o → mul p o = .ok r →
      BuiltPoly n moduli params r
  | toNtt (p : Poly) : BuiltPoly n moduli params p → BuiltPoly n moduli params (toNttForm params p)
  | toCoeffs (p : Poly) : BuiltPoly n moduli params p → BuiltPoly n moduli params (toCoeffsForm params p)

/-- All entries are residues. -/
def Residues (q : Nat) (l : List Int) : Prop := ∀ v ∈ l, 0 ≤ v ∧ v < q

theorem residues_set {q : Nat} (hq : 0 < q) {l : List Int} (h : Residues q l) (i : Nat) (v : Int) :
    Residues q (l.set i (v % q)) := by
  intro x hx
  rcases List.mem_or_eq_of_mem_set hx with hx | rfl
  · exact h x hx
  · exact ⟨Int.emod_nonneg _ (by omega), Int.emod_lt_of_pos _ (by omega)⟩

theorem foldl_keeps {α β : Type} (P : β → Prop) (f : β → α → β) (hf : ∀ b a, P b → P (f b a)) :
    ∀ (l : List α) (b : β), P b → P (l.foldl f b) := by
  intro l
  induction l with
  | nil => exact fun b h => h
  | cons a l ih => exact fun b h => ih _ (hf b a h)

/-- What the transforms keep: the length and being residues. -/
def Kept (q m : Nat) (l : List Int) : Prop := l.length = m ∧ Residues q l

theorem kept_ctButterfly {q m : Nat} (hq : 0 < q) (half k j : Nat) (w : Int) (c : List Int) (h : Kept q m c) :
    Kept q m (ctButterfly q half k j w c) := by
  unfold ctButterfly
  exact ⟨by simp [h.1], residues_set hq (residues_set hq h.2 _ _) _ _⟩

theorem kept_gsButterfly {q m : Nat} (hq : 0 < q) (half k j : Nat) (w : Int) (c : List Int) (h : Kept q m c) :
    Kept q m (gsButterfly q half k j w c) := by
  unfold gsButterfly
  exact ⟨by simp [h.1], residues_set hq (residues_set hq h.2 _ _) _ _⟩

theorem kept_ctStages {q m : Nat} (hq : 0 < q) (psis : List Int) (logLen : Nat) (c : List Int) (h : Kept q m c) :
    ∀ t, Kept q m (ctStages q psis logLen c t).1 := by
  intro t
  induction t with
  | zero => exact h
  | succ t ih =>
    unfold ctStages ctBlocks
    refine foldl_keeps (fun s : List Int × Nat => Kept q m s.1) _ (fun s b hs => ?_) _ _ ih
    exact foldl_keeps (Kept q m) _ (fun c j hc => kept_ctButterfly hq _ _ _ _ _ hc) _ _ hs

theorem kept_gsStages {q m : Nat} (hq : 0 < q) (psis : List Int) (c : List Int) (h : Kept q m c) :
    ∀ t, Kept q m (gsStages q psis c t).1 := by
  intro t
  induction t with
  | zero => exact h
  | succ t ih =>
    unfold gsStages gsBlocks
    refine foldl_keeps (fun s : List Int × Nat => Kept q m s.1) _ (fun s b hs => ?_) _ _ ih
    exact foldl_keeps (Kept q m) _ (fun c j hc => kept_gsButterfly hq _ _ _ _ _ hc) _ _ hs

theorem kept_forward (p : Ntt) {m : Nat} (hq : 0 < p.q) (c : List Int) (h : Kept p.q m c) :
    Kept p.q m (forward p c) := kept_ctStages hq _ _ c h _

theorem kept_backward (p : Ntt) {m : Nat} (hq : 0 < p.q) (c : List Int) (h : Kept p.q m c) :
    Kept p.q m (backward p c) := by
  have := kept_gsStages hq p.psisInvBitrev c h (numBits c.length)
  refine ⟨by simp [backward, this.1], fun v hv => ?_⟩
  obtain ⟨x, _, rfl⟩ := List.mem_map.1 hv
  exact ⟨Int.emod_nonneg _ (by omega), Int.emod_lt_of_pos _ (by omega)⟩

theorem mkNtt_q {n q : Nat} {p : Ntt} (h : mkNtt n q = .ok p) : p.q = q := by
  unfold mkNtt at h
  simp only [bind, Except.bind, pure, Except.pure, throw, throwThe, MonadExceptOf.throw] at h
  repeat' split at h
  all_goals first | (cases h; done) | (cases h; rfl) | skip

theorem mkParams_q (n : Nat) : ∀ (moduli : List Nat) (params : List Ntt), mkParams n moduli = .ok params →
    ∀ (i : Nat) (p : Ntt), params[i]? = some p → moduli[i]? = some p.q := by
  intro moduli
  induction moduli with
  | nil =>
    intro params h
    simp only [mkParams, List.mapM_nil, pure, Except.pure, Except.ok.injEq] at h
    subst h; simp
  | cons q l ih =>
    intro params h
    simp only [mkParams, List.mapM_cons, bind, Except.bind, pure, Except.pure] at h
    cases hq : mkNtt n q with
    | error e => simp [hq] at h
    | ok a =>
      cases hl : l.mapM (fun q => mkNtt n q) with
      | error e => simp [hq, hl] at h
      | ok m =>
        simp only [hq, hl, Except.ok.injEq] at h
        subst h
        intro i p hp
        cases i with
        | zero => simp only [List.getElem?_cons_zero, Option.some.injEq] at hp ⊢; subst hp; exact (mkNtt_q hq).symm
        | succ i => simp only [List.getElem?_cons_succ] at hp ⊢; exact ih m hl i p hp

/-- The shape of a polynomial of the module: one row for each modulus, every row has `n` residues. -/
structure Shaped (n : Nat) (moduli : List Nat) (p : Poly) : Prop where
  degree : p.degree = n
  mod : p.moduli = moduli
  len : p.coeffs.length = moduli.length
  rows : ∀ (i : Nat) (row : List Int) (q : Nat), p.coeffs[i]? = some row → moduli[i]? = some q → Kept q n row

theorem shaped_tabulate {n : Nat} {moduli : List Nat} (hm : ∀ q ∈ moduli, 0 < q) (b : Bool) (f : Nat → Nat → Int) :
    Shaped n moduli { degree := n, moduli := moduli, coeffs := tabulate n moduli (fun i j qi => f i j % qi), isNtt := b } := by
  refine ⟨rfl, rfl, by simp [tabulate], fun i row q hr hq => ?_⟩
  simp only [tabulate, List.getElem?_mapIdx, hq, Option.map_some, Option.some.injEq] at hr
  subst hr
  have hq0 := hm q (List.mem_of_getElem? hq)
  refine ⟨by simp, fun v hv => ?_⟩
  obtain ⟨x, _, rfl⟩ := List.mem_map.1 hv
  exact ⟨Int.emod_nonneg _ (by omega), Int.emod_lt_of_pos _ (by omega)⟩

theorem shaped_mapRows {n : Nat} {moduli : List Nat} {params : List Ntt} (hm : ∀ q ∈ moduli, 0 < q)
    (hp : mkParams n moduli = .ok params) (f : Ntt → List Int → List Int)
    (hf : ∀ (t : Ntt) (m : Nat) (c : List Int), 0 < t.q → Kept t.q m c → Kept t.q m (f t c))
    (p : Poly) (h : Shaped n moduli p) (b : Bool) :
    Shaped n moduli { p with coeffs := mapRows f params p.moduli.length p.coeffs, isNtt := b } := by
  refine ⟨h.degree, h.mod, by simp [mapRows, h.len], fun i row q hr hq => ?_⟩
  simp only [mapRows, List.getElem?_mapIdx] at hr
  cases hc : p.coeffs[i]? with
  | none => simp [hc] at hr
  | some r =>
    have hk := h.rows i r q hc hq
    simp only [hc, Option.map_some, Option.some.injEq] at hr
    subst hr
    split
    · split
      · rename_i t ht
        have := mkParams_q n moduli params hp i t ht
        rw [hq, Option.some.injEq] at this
        subst this
        exact hf t n r (hm _ (List.mem_of_getElem? hq)) hk
      · exact hk
    · exact hk

theorem built_shaped {n : Nat} {moduli : List Nat} {params : List Ntt} (hm : ∀ q ∈ moduli, 0 < q)
    (hp : mkParams n moduli = .ok params) {p : Poly} (h : BuiltPoly n moduli params p) : Shaped n moduli p := by
  induction h with
  | gen coeffs hc =>
    refine ⟨rfl, rfl, by simp [genRnsPolynomial], fun i row q hr hq => ?_⟩
    simp only [genRnsPolynomial, List.getElem?_map, hq, Option.map_some, Option.some.injEq] at hr
    subst hr
    have hq0 := hm q (List.mem_of_getElem? hq)
    refine ⟨by simp [hc], fun v hv => ?_⟩
    obtain ⟨x, _, rfl⟩ := List.mem_map.1 hv
    exact ⟨Int.emod_nonneg _ (by omega), Int.emod_lt_of_pos _ (by omega)⟩
  | neg p _ ih =>
    have := shaped_tabulate hm p.isNtt (fun i j => -entry p i j) (n := n)
    have e := ih.degree; have e' := ih.mod
    unfold RnsNtt.neg
    rw [e, e']
    cases p; simp only at e e'; subst e e'; exact this
  | add p o r _ _ hr ih _ =>
    unfold RnsNtt.add at hr
    split at hr
    · cases hr
    · simp only [Except.ok.injEq] at hr
      subst hr
      have := shaped_tabulate hm p.isNtt (fun i j => entry p i j + entry o i j) (n := n)
      have e := ih.degree; have e' := ih.mod
      rw [e, e']
      cases p; simp only at e e'; subst e e'; exact this
  | sub p o r _ _ hr ih _ =>
    unfold RnsNtt.sub at hr
    split at hr
    · cases hr
    · simp only [Except.ok.injEq] at hr
      subst hr
      have := shaped_tabulate hm p.isNtt (fun i j => entry p i j - entry o i j) (n := n)
      have e := ih.degree; have e' := ih.mod
      rw [e, e']
      cases p; simp only at e e'; subst e e'; exact this
  | mul p o r _ _ hr ih _ =>
    unfold RnsNtt.mul at hr
    split at hr
    · cases hr
    · split at hr
      · cases hr
      · simp only [Except.ok.injEq] at hr
        subst hr
        have := shaped_tabulate hm true (fun i j => entry p i j * entry o i j) (n := n)
        have e := ih.degree; have e' := ih.mod
        rw [e, e']
        cases p; simp only at e e'; subst e e'; exact this
  | toNtt p _ ih =>
    unfold toNttForm
    split
    · exact ih
    · exact shaped_mapRows hm hp forward (fun t m c hq hk => kept_forward t hq c hk) p ih true
  | toCoeffs p _ ih =>
    unfold toCoeffsForm
    split
    · exact shaped_mapRows hm hp backward (fun t m c hq hk => kept_backward t hq c hk) p ih false
    · exact ih

/-- **C112 (what holds).** For every polynomial built with the functions of the module, the round trip gives it
back whenever the moduli fit the stored word: at most `2^64` with the flag, at most `2^32` without it. -/
theorem C112_built_partial (x64 : Bool) (S : Store (wide x64)) (n : Nat) (moduli : List Nat) (params : List Ntt)
    (hm : ∀ q ∈ moduli, 0 < q ∧ q ≤ 2 ^ wide x64) (hp : mkParams n moduli = .ok params) (p : Poly)
    (h : BuiltPoly n moduli params p) : jnpRoundTrip x64 S p = .ok p := by
  have hs := built_shaped (fun q hq => (hm q hq).1) hp h
  have row : ∀ row ∈ p.coeffs, ∃ q ∈ moduli, Kept q n row := by
    intro row hr
    obtain ⟨i, hi, rfl⟩ := List.getElem_of_mem hr
    have hi' : i < moduli.length := hs.len ▸ hi
    exact ⟨moduli[i], List.getElem_mem _, hs.rows i _ _ (List.getElem?_eq_getElem hi) (List.getElem?_eq_getElem hi')⟩
  rw [C112_round_trip_iff]
  refine ⟨⟨n, fun r hr => (row r hr).choose_spec.2.1⟩, fun r hr v hv => ?_⟩
  obtain ⟨q, hq, hk⟩ := row r hr
  have h1 := hk.2 v hv
  have h2 : (q : Int) ≤ 2 ^ wide x64 := by exact_mod_cast (hm q hq).2
  exact ⟨h1.1, by omega⟩

/-- **C112 (the violation).** While the flag is off, for every modulus above `2^32` there is a polynomial of the
module, of any positive degree, that the round trip does not give back: the constant `2^32`. -/
theorem C112_negation (S : Store (wide false)) (n q : Nat) (hn : 0 < n) (hq : 2 ^ 32 < q) :
    jnpRoundTrip false S (genRnsPolynomial n ((2 ^ 32 : Int) :: List.replicate (n - 1) 0) [q]) ≠
      .ok (genRnsPolynomial n ((2 ^ 32 : Int) :: List.replicate (n - 1) 0) [q]) := by
  intro h
  rw [C112_round_trip_iff] at h
  have := h.2 (((2 ^ 32 : Int) :: List.replicate (n - 1) 0).map (fun c => c % (q : Int)))
    (by simp [genRnsPolynomial]) ((2 ^ 32 : Int) % q) (by simp)
  rw [Int.emod_eq_of_lt (by norm_num) (by exact_mod_cast hq)] at this
  simp [wide] at this

/-- A store that wraps, and one that raises, so that both behaviours of the library meet the laws. -/
def wrapStore (w : Nat) : Store w where
  put v := some (v % 2 ^ w)
  exact v h0 h := by rw [Int.emod_eq_of_lt h0 h]
  inRange v r h := by
    simp only [Option.some.injEq] at h
    subst h
    exact ⟨Int.emod_nonneg _ (by positivity), Int.emod_lt_of_pos _ (by positivity)⟩

@[inherit_doc wrapStore]
def raiseStore (w : Nat) : Store w where
  put v := if 0 ≤ v ∧ v < 2 ^ w then some v else none
  exact v h0 h := by simp [h0, h]
  inRange v r h := by
    split at h
    · rename_i hv
      simp only [Option.some.injEq] at h
      subst h
      exact hv
    · cases h

/-- The hypotheses are met: products in `Z_17[X]/(X^4+1)`, converted with and without the flag. -/
example : ∃ params, mkParams 4 [17] = .ok params ∧
    BuiltPoly 4 [17] params (toNttForm params (genRnsPolynomial 4 [1, -2, 3, 40] [17])) ∧
    jnpRoundTrip false (wrapStore _) (toNttForm params (genRnsPolynomial 4 [1, -2, 3, 40] [17])) =
      .ok (toNttForm params (genRnsPolynomial 4 [1, -2, 3, 40] [17])) := by
  have h : (mkParams 4 [17]).toOption.isSome := by decide +kernel
  cases hp : mkParams 4 [17] with
  | error e => rw [hp] at h; cases h
  | ok params =>
    have hb : BuiltPoly 4 [17] params (toNttForm params (genRnsPolynomial 4 [1, -2, 3, 40] [17])) :=
      .toNtt _ (.gen _ rfl)
    exact ⟨params, rfl, hb, C112_built_partial false _ 4 [17] params (by simp [wide]) hp _ hb⟩

/-- One lost coefficient: `2^32 + 5` modulo a 40-bit modulus comes back as `5`, or not at all. -/
example : jnpRoundTrip false (wrapStore _) (genRnsPolynomial 1 [2 ^ 32 + 5] [2 ^ 40]) =
      .ok (genRnsPolynomial 1 [5] [2 ^ 40]) ∧
    jnpRoundTrip false (raiseStore _) (genRnsPolynomial 1 [2 ^ 32 + 5] [2 ^ 40]) = .error "OverflowError" ∧
    jnpRoundTrip true (raiseStore _) (genRnsPolynomial 1 [2 ^ 32 + 5] [2 ^ 40]) =
      .ok (genRnsPolynomial 1 [2 ^ 32 + 5] [2 ^ 40]) := by
  refine ⟨rfl, rfl, rfl⟩

end Verif.Props
