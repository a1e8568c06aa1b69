import Verif.Model.NttCpuCache
import Verif.Props.NttCpu

/-!
# C106: the cache of the CPU transforms is invisible
-/

namespace Verif.Props
open Verif.NttCpuCache Verif.CkksMath Verif.NttCpu Verif.BitReversal

/-- The permutation that is computed when the cache has no entry. -/
def freshPerm (n : Nat) : List Nat := permArrays (n.size - 1) (List.replicate n 0) (List.range n)

/-- Every entry of the cache is the permutation of its key. -/
def GoodCache (c : Cache) : Prop := ∀ n p, c.lookup n = some p → p = freshPerm n

/-- A computation whose outcome is the same for all good caches and that leaves a good cache. -/
def Indep {α : Type} (x : M α) : Prop := ∀ c, GoodCache c → (x c).1 = (x []).1 ∧ GoodCache (x c).2

theorem goodCache_nil : GoodCache [] := by intro n p h; simp at h

theorem indep_lift {α : Type} (x : Except String α) : Indep (lift x) := fun _ hc => ⟨rfl, hc⟩

theorem indep_pure {α : Type} (x : α) : Indep (pure x : M α) := fun _ hc => ⟨rfl, hc⟩

theorem bind_value {α β : Type} (x : M α) (f : α → M β) (hf : ∀ a, Indep (f a)) (hx : Indep x) (c : Cache)
    (hc : GoodCache c) : ((x >>= f) c).1 = (x []).1 >>= fun a => (f a []).1 := by
  show (andThen x f c).1 = _
  unfold andThen
  obtain ⟨h1, h2⟩ := hx c hc
  rcases h : x c with ⟨r, c'⟩
  rw [h] at h1 h2
  cases r with
  | error e => rw [← h1]; rfl
  | ok a => rw [← h1]; exact (hf a c' h2).1

theorem indep_bind {α β : Type} (x : M α) (f : α → M β) (hf : ∀ a, Indep (f a)) (hx : Indep x) : Indep (x >>= f) := by
  intro c hc
  refine ⟨(bind_value x f hf hx c hc).trans (bind_value x f hf hx [] goodCache_nil).symm, ?_⟩
  show GoodCache (andThen x f c).2
  unfold andThen
  obtain ⟨-, h2⟩ := hx c hc
  rcases h : x c with ⟨r, c'⟩
  rw [h] at h2
  cases r with
  | error e => exact h2
  | ok a => exact (hf a c' h2).2

theorem perm_value (n : Nat) : (getBitReversalPerm n []).1 = .ok (freshPerm n) := rfl

theorem indep_perm (n : Nat) : Indep (getBitReversalPerm n) := by
  intro c hc
  unfold getBitReversalPerm
  rcases h : c.lookup n with _ | p
  · refine ⟨rfl, ?_⟩
    intro n' p' h'
    simp only [List.lookup_cons] at h'
    by_cases hn : n' = n
    · subst hn
      simp at h'
      exact h'.symm
    · rw [show (n' == n) = false by simpa using hn] at h'
      exact hc n' p' h'
  · refine ⟨?_, hc⟩
    rw [hc n p h]
    rfl

theorem indep_nttNegacyclic (n : Nat) (q psi : Int) (a : Nat → Int) :
    Indep (NttCpuCache.nttNegacyclic n q psi a) :=
  indep_bind _ _ (fun _ => indep_bind _ _ (fun _ => indep_pure _) (indep_lift _)) (indep_perm n)

theorem indep_inttCyclic (n : Nat) (q omega : Int) (a : Nat → Int) : Indep (NttCpuCache.inttCyclic n q omega a) :=
  indep_bind _ _ (fun _ => indep_bind _ _ (fun _ => indep_bind _ _ (fun _ => indep_bind _ _ (fun _ => indep_pure _)
    (indep_lift _)) (indep_perm n)) (indep_lift _)) (indep_lift _)

theorem indep_inttNegacyclic (n : Nat) (q psi : Int) (a : Nat → Int) :
    Indep (NttCpuCache.inttNegacyclic n q psi a) :=
  indep_bind _ _ (fun _ => indep_bind _ _ (fun _ => indep_pure _) (indep_lift _)) (indep_inttCyclic _ _ _ _)

theorem indep_forColumns (body : Nat → Nat → M (Nat → Int)) (hb : ∀ i q, Indep (body i q)) :
    ∀ (moduli : List Nat) (i : Nat), Indep (forColumns body i moduli)
  | [], _ => indep_pure _
  | q :: moduli, i => indep_bind _ _ (fun _ => indep_bind _ _ (fun _ => indep_pure _)
      (indep_forColumns body hb moduli (i + 1))) (hb i q)

theorem indep_nttBody (degree : Nat) (poly : List (Nat → Int)) (perm : List Nat) (i q : Nat) :
    Indep (do
      let psi ← lift (rootOfUnity (2 * degree) q)
      let coeffs ← lift (column poly i)
      let r ← NttCpuCache.nttNegacyclic degree q psi coeffs
      pure (fun j => gather r perm j % q)) :=
  indep_bind _ _ (fun _ => indep_bind _ _ (fun _ => indep_bind _ _ (fun _ => indep_pure _)
    (indep_nttNegacyclic _ _ _ _)) (indep_lift _)) (indep_lift _)

theorem indep_inttBody (degree : Nat) (poly : List (Nat → Int)) (perm : List Nat) (i q : Nat) :
    Indep (do
      let psi ← lift (rootOfUnity (2 * degree) q)
      let coeffs ← lift (column poly i)
      NttCpuCache.inttNegacyclic degree q psi (gather coeffs perm)) :=
  indep_bind _ _ (fun _ => indep_bind _ _ (fun _ => indep_inttNegacyclic _ _ _ _) (indep_lift _)) (indep_lift _)

theorem indep_run (x : Call) : Indep x.run := by
  unfold Call.run
  split
  · exact indep_bind _ _ (fun _ => indep_forColumns _ (indep_inttBody _ _ _) _ _) (indep_perm _)
  · exact indep_bind _ _ (fun _ => indep_forColumns _ (indep_nttBody _ _ _) _ _) (indep_perm _)

theorem goodCache_runCalls : ∀ (calls : List Call) (c : Cache), GoodCache c → GoodCache (runCalls calls c).2
  | [], _, hc => hc
  | x :: calls, c, hc => goodCache_runCalls calls (x.run c).2 (indep_run x c hc).2

/-- C106: in every sequence of calls of the two transforms, whatever their degrees, moduli and arguments and whichever of
them raise, every call has the outcome that it has as the first call of a process. -/
theorem C106_invisible (calls : List Call) : (runCalls calls []).1 = calls.map fun x => (x.run []).1 := by
  have h : ∀ (calls : List Call) (c : Cache), GoodCache c →
      (runCalls calls c).1 = calls.map fun x => (x.run []).1 := by
    intro calls
    induction calls with
    | nil => intro _ _; rfl
    | cons x calls ih =>
      intro c hc
      obtain ⟨h1, h2⟩ := indep_run x c hc
      show (x.run c).1 :: (runCalls calls (x.run c).2).1 = _
      rw [h1, ih _ h2]
      rfl
  exact h calls [] goodCache_nil

/-- Non-vacuity: transforms of two degrees with a call that raises in between. -/
example := C106_invisible [⟨false, 4, [fun i => i], [17]⟩, ⟨false, 3, [fun i => i], [17]⟩, ⟨true, 8, [fun i => 5], [97, 193]⟩,
  ⟨true, 4, [fun i => i * i], [17]⟩]

/-! ## The values -/

theorem permArrays_eq : ∀ (bits j : Nat) (perm idx : List Nat), j + bits ≤ 32 → (∀ p ∈ perm, p < 2 ^ j) →
    permArrays bits perm idx = if bits = 0 then perm else List.zipWith (fun p i => bitReversalLoop bits p i) perm idx
  | 0, _, _, _, _, _ => by simp [permArrays]
  | bits + 1, j, perm, idx, h, hp => by
    unfold permArrays
    rw [if_neg (by omega)]
    have hz : List.zipWith (fun p i => ((p <<< 1) % 2 ^ 32) ||| (i &&& 1)) perm idx =
        List.zipWith (fun p i => (p <<< 1) ||| (i &&& 1)) perm idx := by
      apply List.ext_getElem (by simp)
      intro i h1 h2
      simp only [List.length_zipWith] at h1
      rw [List.getElem_zipWith, List.getElem_zipWith, Nat.mod_eq_of_lt]
      have := hp perm[i] (List.getElem_mem _)
      rw [Nat.shiftLeft_eq]
      calc perm[i] * 2 ^ 1 < 2 ^ j * 2 ^ 1 := by omega
        _ = 2 ^ (j + 1) := by rw [pow_succ]; ring
        _ ≤ 2 ^ 32 := Nat.pow_le_pow_right (by norm_num) (by omega)
    rw [hz, permArrays_eq bits (j + 1) _ _ (by omega) (by
      intro p hpm
      obtain ⟨i, hi, rfl⟩ := List.mem_iff_getElem.1 hpm
      simp only [List.length_zipWith] at hi
      rw [List.getElem_zipWith]
      have h1 := hp perm[i] (List.getElem_mem _)
      have h2 : perm[i] <<< 1 < 2 ^ (j + 1) := by rw [Nat.shiftLeft_eq, pow_succ]; omega
      have h3 : idx[i] &&& 1 < 2 ^ (j + 1) := lt_of_le_of_lt Nat.and_le_right (Nat.one_lt_two_pow (by omega))
      exact Nat.or_lt_two_pow h2 h3)]
    split
    · rename_i hb
      subst hb
      apply List.ext_getElem (by simp)
      intro i h1 h2
      simp [bitReversalLoop]
    · apply List.ext_getElem (by simp)
      intro i h1 h2
      simp [bitReversalLoop]

theorem freshPerm_two_pow (k : Nat) (hk : k ≤ 32) : freshPerm (2 ^ k) = (List.range (2 ^ k)).map fun i => bitReversal i k := by
  unfold freshPerm
  rw [Nat.size_pow, Nat.add_sub_cancel, permArrays_eq k 0 _ _ (by omega) (fun p hp => by
    rw [List.eq_of_mem_replicate hp]; norm_num)]
  split
  · rename_i h
    subst h
    decide
  · apply List.ext_getElem (by simp)
    intro i h1 h2
    simp [bitReversal]

theorem gather_fresh (k : Nat) (hk : k ≤ 32) (a : Nat → Int) (i : Nat) (hi : i < 2 ^ k) :
    gather a (freshPerm (2 ^ k)) i = a (perm (2 ^ k) i) := by
  unfold gather
  rw [freshPerm_two_pow k hk, perm_two_pow]
  simp [hi]

/-- The butterflies of the first `2^k` entries read no others. -/
theorem partner_lt (k s i : Nat) (hs : s < k) (hi : i < 2 ^ k) (hj : i % (2 * 2 ^ s) < 2 ^ s) : i + 2 ^ s < 2 ^ k := by
  obtain ⟨d, rfl⟩ : ∃ d, k = s + 1 + d := ⟨k - (s + 1), by omega⟩
  have e : 2 ^ (s + 1 + d) = 2 * 2 ^ s * 2 ^ d := by rw [pow_add, pow_succ]; ring
  rw [e] at hi ⊢
  have h1 := Nat.div_add_mod i (2 * 2 ^ s)
  have h2 : i / (2 * 2 ^ s) < 2 ^ d := Nat.div_lt_of_lt_mul hi
  have h3 : 2 * 2 ^ s * (i / (2 * 2 ^ s) + 1) ≤ 2 * 2 ^ s * 2 ^ d := Nat.mul_le_mul le_rfl h2
  rw [Nat.mul_add, Nat.mul_one] at h3
  omega

theorem ditLoop_congr (k : Nat) (q omega : Int) (a b : Nat → Int) (h : ∀ i, i < 2 ^ k → a i = b i) :
    ∀ s, s ≤ k → ∀ i, i < 2 ^ k → ditLoop (2 ^ k) q omega s a i = ditLoop (2 ^ k) q omega s b i
  | 0, _, i, hi => h i hi
  | s + 1, hs, i, hi => by
    have ih := ditLoop_congr k q omega a b h s (by omega)
    unfold ditLoop ditStep
    simp only
    split
    · rename_i hj
      rw [ih i hi, ih _ (partner_lt k s i (by omega) hi hj)]
    · rw [ih i hi, ih (i - 2 ^ s) (lt_of_le_of_lt (Nat.sub_le _ _) hi)]

theorem difLoop_congr (k : Nat) (q w : Int) : ∀ s, s ≤ k → ∀ a b : Nat → Int, (∀ i, i < 2 ^ k → a i = b i) →
    ∀ i, i < 2 ^ k → difLoop (2 ^ k) q w s a i = difLoop (2 ^ k) q w s b i
  | 0, _, _, _, h, i, hi => h i hi
  | s + 1, hs, a, b, h, i, hi => by
    unfold difLoop
    refine difLoop_congr k q w s (by omega) _ _ ?_ i hi
    intro j hj
    unfold difStep
    simp only
    split
    · rename_i hm
      rw [h j hj, h _ (partner_lt k s j (by omega) hj hm)]
    · rw [h j hj, h (j - 2 ^ s) (lt_of_le_of_lt (Nat.sub_le _ _) hj)]

/-- Equal below `2^k`. -/
def AgreeE (n : Nat) (x y : Except String (Nat → Int)) : Prop :=
  match x, y with
  | .ok a, .ok b => ∀ i, i < n → a i = b i
  | .error e, .error e' => e = e'
  | _, _ => False

theorem nttNegacyclic_value (k : Nat) (hk : k ≤ 32) (q psi : Int) (a : Nat → Int) :
    AgreeE (2 ^ k) (NttCpuCache.nttNegacyclic (2 ^ k) q psi a []).1 (NttCpu.nttNegacyclic (2 ^ k) q psi a) := by
  have hc : checkLength (2 ^ k) = .ok () := by unfold checkLength; rw [Nat.size_pow, Nat.add_sub_cancel, if_pos rfl]
  have h1 : (NttCpuCache.nttNegacyclic (2 ^ k) q psi a []).1 = .ok (ditLoop (2 ^ k) q (powMod psi 2 q)
      ((2 ^ k).size - 1) (gather (fun i => a i * powersAt psi q i % q) (freshPerm (2 ^ k)))) := by
    unfold NttCpuCache.nttNegacyclic NttCpuCache.nttCyclic
    simp only
    rw [bind_value _ _ (fun _ => indep_bind _ _ (fun _ => indep_pure _) (indep_lift _)) (indep_perm _) _ goodCache_nil,
      perm_value]
    show (andThen (lift (checkLength (2 ^ k))) _ []).1 = _
    rw [hc]
    rfl
  have h2 : NttCpu.nttNegacyclic (2 ^ k) q psi a = .ok (ditLoop (2 ^ k) q (powMod psi 2 q)
      ((2 ^ k).size - 1) (fun i => (fun i => a i * powersAt psi q i % q) (perm (2 ^ k) i))) := by
    unfold NttCpu.nttNegacyclic NttCpu.nttCyclic
    simp only
    rw [hc]
    rfl
  rw [h1, h2]
  exact ditLoop_congr k _ _ _ _ (gather_fresh k hk _) _ (by rw [Nat.size_pow]; omega)

theorem inttNegacyclic_value (k : Nat) (hk : k ≤ 32) (q psi : Int) (a b : Nat → Int) (hab : ∀ i, i < 2 ^ k → a i = b i) :
    AgreeE (2 ^ k) (NttCpuCache.inttNegacyclic (2 ^ k) q psi a []).1 (NttCpu.inttNegacyclic (2 ^ k) q psi b) := by
  have hc : checkLength (2 ^ k) = .ok () := by unfold checkLength; rw [Nat.size_pow, Nat.add_sub_cancel, if_pos rfl]
  unfold NttCpuCache.inttNegacyclic NttCpu.inttNegacyclic
  simp only
  rw [bind_value _ _ (fun _ => indep_bind _ _ (fun _ => indep_pure _) (indep_lift _)) (indep_inttCyclic _ _ _ _) _
    goodCache_nil]
  have hi : AgreeE (2 ^ k) (NttCpuCache.inttCyclic (2 ^ k) q (powMod psi 2 q) a []).1
      (NttCpu.inttCyclic (2 ^ k) q (powMod psi 2 q) b) := by
    unfold NttCpuCache.inttCyclic NttCpu.inttCyclic
    rcases hw : invMod (powMod psi 2 q) q with e | w
    · exact rfl
    · show AgreeE _ (andThen (lift (checkLength (2 ^ k))) _ []).1 (checkLength (2 ^ k) >>= _)
      rw [hc]
      rcases hv : invMod ((2 ^ k : Nat) : Int) q with e | v
      · exact rfl
      · intro i hi
        show gather (difLoop (2 ^ k) q w _ a) (freshPerm (2 ^ k)) i * v % q = difLoop (2 ^ k) q w _ b (perm (2 ^ k) i) * v % q
        rw [gather_fresh k hk _ i hi, difLoop_congr k q w _ (by rw [Nat.size_pow]; omega) a b hab]
        rw [perm_two_pow]
        exact rev_lt i k
  rcases h1 : (NttCpuCache.inttCyclic (2 ^ k) q (powMod psi 2 q) a []).1 with e | x <;>
    rcases h2 : NttCpu.inttCyclic (2 ^ k) q (powMod psi 2 q) b with e' | y <;> rw [h1, h2] at hi
  · exact hi
  · exact hi.elim
  · exact hi.elim
  · rcases hw : invMod psi q with e | w
    · exact rfl
    · intro i hlt
      show x i * _ % q = y i * _ % q
      rw [hi i hlt]

/-- The value of the loop over the moduli, when every body succeeds. -/
theorem forColumns_value (body : Nat → Nat → M (Nat → Int)) (hb : ∀ i q, Indep (body i q)) (P : Nat → Nat → (Nat → Int) → Prop) :
    ∀ (moduli : List Nat) (i : Nat),
      (∀ j (h : j < moduli.length), ∃ col, (body (i + j) moduli[j] []).1 = .ok col ∧ P (i + j) moduli[j] col) →
      ∃ cols, (forColumns body i moduli []).1 = .ok cols ∧ cols.length = moduli.length ∧
        ∀ j (h : j < moduli.length) (h' : j < cols.length), P (i + j) moduli[j] cols[j]
  | [], _, _ => ⟨[], rfl, rfl, fun j h => absurd h (by simp)⟩
  | q :: moduli, i, h => by
    obtain ⟨col, h1, h2⟩ := h 0 (by simp)
    obtain ⟨cols, h3, h4, h5⟩ := forColumns_value body hb P moduli (i + 1) (fun j hj => by
      have := h (j + 1) (by simpa using hj)
      simpa [Nat.add_assoc, Nat.add_comm 1 j] using this)
    refine ⟨col :: cols, ?_, by simp [h4], ?_⟩
    · unfold forColumns
      rw [bind_value _ _ (fun _ => indep_bind _ _ (fun _ => indep_pure _) (indep_forColumns body hb moduli (i + 1)))
        (hb i q) _ goodCache_nil]
      have h1' : (body i q []).1 = .ok col := h1
      rw [h1']
      show ((forColumns body (i + 1) moduli >>= fun rest => pure (col :: rest)) []).1 = _
      rw [bind_value _ _ (fun _ => indep_pure _) (indep_forColumns body hb moduli (i + 1)) _ goodCache_nil, h3]
      rfl
    · intro j hj hj'
      cases j with
      | zero => exact h2
      | succ j =>
        have := h5 j (by simpa using hj) (by simpa using hj')
        simpa [Nat.add_assoc, Nat.add_comm 1 j] using this

theorem forColumns_value_zero (body : Nat → Nat → M (Nat → Int)) (hb : ∀ i q, Indep (body i q))
    (P : Nat → Nat → (Nat → Int) → Prop) (moduli : List Nat)
    (h : ∀ j (h : j < moduli.length), ∃ col, (body j moduli[j] []).1 = .ok col ∧ P j moduli[j] col) :
    ∃ cols, (forColumns body 0 moduli []).1 = .ok cols ∧ cols.length = moduli.length ∧
      ∀ j (h : j < moduli.length) (h' : j < cols.length), P j moduli[j] cols[j] := by
  obtain ⟨cols, h1, h2, h3⟩ := forColumns_value body hb P moduli 0 (fun j hj => by rw [Nat.zero_add]; exact h j hj)
  refine ⟨cols, h1, h2, fun j hj hj' => ?_⟩
  have := h3 j hj hj'
  rwa [Nat.zero_add] at this

/-- C106: after any calls, the transforms of a polynomial in RNS form with prime moduli, one residue column for each
modulus, evaluate and interpolate: entry `i` of column `m` is the value at `ψ^(2 rev(i) + 1)` for a `ψ` of order `2n`, and
the inverse returns the reduced coefficients. -/
theorem C106_values (k : Nat) (hk : k ≤ 32) (moduli : List Nat) (hq : ∀ q ∈ moduli, q.Prime ∧ 2 * 2 ^ k ∣ q - 1)
    (poly : List (Nat → Int)) (hp : moduli.length ≤ poly.length) :
    ∃ R S, R.length = moduli.length ∧ S.length = moduli.length ∧
      (∀ calls, ((Call.mk false (2 ^ k) poly moduli).run (runCalls calls []).2).1 = .ok R) ∧
      (∀ calls, ((Call.mk true (2 ^ k) R moduli).run (runCalls calls []).2).1 = .ok S) ∧
      ∀ m (hm : m < moduli.length) (hR : m < R.length) (hS : m < S.length), ∃ psi : Int,
        orderOf (psi : ZMod moduli[m]) = 2 * 2 ^ k ∧ ∀ i, i < 2 ^ k →
          (0 ≤ R[m] i ∧ R[m] i < moduli[m] ∧ (R[m] i : ZMod moduli[m]) = ∑ j ∈ Finset.range (2 ^ k),
            (poly[m] j : ZMod moduli[m]) * (psi : ZMod moduli[m]) ^ ((2 * bitReversal i k + 1) * j)) ∧
          S[m] i = poly[m] i % moduli[m] := by
  have hrun : ∀ (x : Call) calls, (x.run (runCalls calls []).2).1 = (x.run []).1 := fun x calls =>
    (indep_run x _ (goodCache_runCalls calls [] goodCache_nil)).1
  -- the forward transform
  obtain ⟨R, hR1, hR2, hR3⟩ := forColumns_value_zero _ (indep_nttBody (2 ^ k) poly (freshPerm (2 ^ k)))
    (fun i q col => ∃ (h : i < poly.length) (r : Nat → Int), nttPoly (2 ^ k) q poly[i] = .ok r ∧
      ∀ j, j < 2 ^ k → col j = r j) moduli (by
    intro m hm
    obtain ⟨hpr, hd⟩ := hq moduli[m] (List.getElem_mem _)
    obtain ⟨psi, h1, h2, h3⟩ := C31_poly k moduli[m] hpr hd
    have hmp : m < poly.length := lt_of_lt_of_le hm hp
    obtain ⟨r, s, ha, hb, -, -⟩ := h3 poly[m]
    unfold nttPoly at ha
    rw [h1] at ha
    have hv := nttNegacyclic_value k hk moduli[m] psi poly[m]
    rcases hx : NttCpu.nttNegacyclic (2 ^ k) moduli[m] psi poly[m] with e | y
    · have ha' : (NttCpu.nttNegacyclic (2 ^ k) moduli[m] psi poly[m] >>= fun r =>
          pure (fun i => r (perm (2 ^ k) i) % (moduli[m] : Int))) = .ok r := ha
      rw [hx] at ha'
      exact absurd ha' (by simp [bind, Except.bind])
    · rw [hx] at hv
      rcases hz : (NttCpuCache.nttNegacyclic (2 ^ k) moduli[m] psi poly[m] []).1 with e | z
      · rw [hz] at hv; exact hv.elim
      · rw [hz] at hv
        have hcol : column poly m = .ok poly[m] := by
          unfold column
          simp [hmp]
        refine ⟨fun j => gather z (freshPerm (2 ^ k)) j % moduli[m], ?_, hmp, r, ?_, ?_⟩
        · rw [bind_value _ _ (fun _ => indep_bind _ _ (fun _ => indep_bind _ _ (fun _ => indep_pure _)
            (indep_nttNegacyclic _ _ _ _)) (indep_lift _)) (indep_lift _) _ goodCache_nil]
          show (rootOfUnity (2 * 2 ^ k) moduli[m] >>= _) = _
          rw [h1]
          show ((lift (column poly m) >>= _) []).1 = _
          rw [bind_value _ _ (fun _ => indep_bind _ _ (fun _ => indep_pure _)
            (indep_nttNegacyclic _ _ _ _)) (indep_lift _) _ goodCache_nil]
          show (column poly m >>= _) = _
          rw [hcol]
          show ((NttCpuCache.nttNegacyclic (2 ^ k) moduli[m] psi poly[m] >>= _) []).1 = _
          rw [bind_value _ _ (fun _ => indep_pure _) (indep_nttNegacyclic _ _ _ _) _ goodCache_nil, hz]
          rfl
        · unfold nttPoly
          rw [h1]
          simpa using ha
        · intro j hj
          have ha' : (NttCpu.nttNegacyclic (2 ^ k) moduli[m] psi poly[m] >>= fun r =>
            pure (fun i => r (perm (2 ^ k) i) % (moduli[m] : Int))) = .ok r := ha
          rw [hx] at ha'
          rw [← Except.ok.inj ha']
          show gather z (freshPerm (2 ^ k)) j % (moduli[m] : Int) = y (perm (2 ^ k) j) % (moduli[m] : Int)
          rw [gather_fresh k hk _ _ hj, hv _ (by rw [perm_two_pow]; exact rev_lt j k)])
  -- the inverse
  obtain ⟨S, hS1, hS2, hS3⟩ := forColumns_value_zero _ (indep_inttBody (2 ^ k) R (freshPerm (2 ^ k)))
    (fun i q col => ∃ (h : i < R.length) (h' : i < poly.length), ∃ psi : Int, orderOf (psi : ZMod q) = 2 * 2 ^ k ∧
      ∀ j, j < 2 ^ k → (0 ≤ R[i] j ∧ R[i] j < q ∧ (R[i] j : ZMod q) = ∑ c ∈ Finset.range (2 ^ k),
            (poly[i] c : ZMod q) * (psi : ZMod q) ^ ((2 * bitReversal j k + 1) * c)) ∧ col j = poly[i] j % q) moduli (by
    intro m hm
    obtain ⟨hpr, hd⟩ := hq moduli[m] (List.getElem_mem _)
    obtain ⟨psi, h1, h2, h3⟩ := C31_poly k moduli[m] hpr hd
    have hmp : m < poly.length := lt_of_lt_of_le hm hp
    have hmR : m < R.length := by omega
    obtain ⟨r, s, ha, hb, hc, hd'⟩ := h3 poly[m]
    obtain ⟨_, r', hr1, hr2⟩ := hR3 m hm hmR
    rw [ha] at hr1
    cases hr1
    unfold inttPoly at hb
    rw [h1] at hb
    have hv := inttNegacyclic_value k hk moduli[m] psi (gather R[m] (freshPerm (2 ^ k))) (fun i => r (perm (2 ^ k) i))
      (fun i hi => by rw [gather_fresh k hk _ _ hi, hr2 _ (by rw [perm_two_pow]; exact rev_lt i k)])
    have hb' : NttCpu.inttNegacyclic (2 ^ k) moduli[m] psi (fun i => r (perm (2 ^ k) i)) = .ok s := hb
    rw [hb'] at hv
    rcases hz : (NttCpuCache.inttNegacyclic (2 ^ k) moduli[m] psi (gather R[m] (freshPerm (2 ^ k))) []).1 with e | z
    · rw [hz] at hv; exact hv.elim
    · rw [hz] at hv
      have hcol : column R m = .ok R[m] := by
        unfold column
        simp [hmR]
      refine ⟨z, ?_, hmR, hmp, psi, h2, ?_⟩
      · rw [bind_value _ _ (fun _ => indep_bind _ _ (fun _ => indep_inttNegacyclic _ _ _ _) (indep_lift _))
          (indep_lift _) _ goodCache_nil]
        show (rootOfUnity (2 * 2 ^ k) moduli[m] >>= _) = _
        rw [h1]
        show ((lift (column R m) >>= _) []).1 = _
        rw [bind_value _ _ (fun _ => indep_inttNegacyclic _ _ _ _) (indep_lift _) _ goodCache_nil]
        show (column R m >>= _) = _
        rw [hcol]
        exact hz
      · intro j hj
        have := hr2 j hj
        rw [this, hv j hj]
        exact ⟨hc j hj, hd' j hj⟩)
  refine ⟨R, S, hR2, hS2, ?_, ?_, ?_⟩
  · intro calls
    rw [hrun]
    show (nttNegacyclicPoly (2 ^ k) poly moduli []).1 = _
    unfold nttNegacyclicPoly
    rw [bind_value _ _ (fun _ => indep_forColumns _ (indep_nttBody _ _ _) _ _) (indep_perm _) _ goodCache_nil, perm_value]
    exact hR1
  · intro calls
    rw [hrun]
    show (inttNegacyclicPoly (2 ^ k) R moduli []).1 = _
    unfold inttNegacyclicPoly
    rw [bind_value _ _ (fun _ => indep_forColumns _ (indep_inttBody _ _ _) _ _) (indep_perm _) _ goodCache_nil, perm_value]
    exact hS1
  · intro m hm hR hS
    obtain ⟨_, _, psi, h1, h2⟩ := hS3 m hm hS
    exact ⟨psi, h1, h2⟩

/-- Non-vacuity: two moduli and three columns. -/
example := C106_values 2 (by norm_num) [17, 41] (by
  intro q hq
  simp only [List.mem_cons, List.not_mem_nil, or_false] at hq
  rcases hq with rfl | rfl
  · exact ⟨by decide, by norm_num⟩
  · exact ⟨by decide, by norm_num⟩) [fun i => i, fun _ => -3, fun _ => 0] (by decide)

end Verif.Props
