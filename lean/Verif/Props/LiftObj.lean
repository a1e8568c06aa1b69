import Verif.Model.LiftObj
import Verif.Lemmas.MulKernelsRelin
import Verif.Props.CkksRotObj
import Verif.Props.CkksSession

/-!
# Property C99, second part: `lift_ciphertext` on ciphertext objects
-/

namespace Verif.Props
open Verif.Barrett Verif.Slots Verif.CkksKeys Verif.CkksMul Verif.RescaleArr Verif.Automorphism Verif.LiftObj Obj RotObj

namespace LiftO

theorem transformArr_ok {f : Nat → Nat → Nat → NttBat.Tables → (Nat → Nat) → Nat → Nat} {r c : Nat} {K : NttK} {A B : Arr Nat}
    (h : transformArr f r c K A = .ok B) : bdim A.l K.length = .ok B.l ∧ B.e = A.e ∧ B.n = A.n := by
  unfold transformArr at h
  obtain ⟨l, h1, h2⟩ := CkksObj.bind_ok_iff.1 h
  obtain rfl := Except.ok.inj h2
  exact ⟨h1, rfl, rfl⟩

theorem basisChangeArr_ok {original target : List Nat} {A B : Arr Nat} (h : basisChangeArr original target A = .ok B) :
    bdim A.l original.length = .ok original.length ∧ B.l = target.length := by
  unfold basisChangeArr at h
  obtain ⟨l, h1, h2⟩ := CkksObj.bind_ok_iff.1 h
  by_cases hl : l = original.length
  · subst hl
    simp only [ne_eq, not_true_eq_false, if_false] at h2
    obtain ⟨els, -, h3⟩ := CkksObj.bind_ok_iff.1 h2
    obtain rfl := Except.ok.inj h3
    exact ⟨h1, rfl⟩
  · simp [hl, throw, throwThe, MonadExceptOf.throw, bind, Except.bind] at h2

theorem zip_kernel {ms : List Nat} (g : Nat → NttBat.Tables) {i : Nat} (hi : i < ms.length) :
    (ms.zip (ms.map g)).getD i (0, Rescale.noTables) = (ms.getD i 0, g (ms.getD i 0)) := by
  rw [List.getD_eq_getElem _ _ (by simpa using hi), List.getElem_zip, List.getElem_map, List.getD_eq_getElem _ _ hi]

theorem nttKernel_ok {kr kc : Nat} {ms : List Nat} (hne : ms ≠ []) (h4 : ∀ m ∈ ms, FourStep kr kc m) :
    nttKernel (2 ^ kr) (2 ^ kc) ms = .ok (ms.zip (ms.map (tablesFor kr kc))) := by
  unfold nttKernel
  rw [if_neg hne, mapM_eq_map (fun q : Nat => NttBat.precomputeTables (2 ^ kr) (2 ^ kc) q) (tablesFor kr kc) ms
    (fun m hm => tablesFor_ok (h4 m hm))]
  rfl

/-- The run on objects, element by element. -/
theorem lift_elements {kr kc : Nat} {q p : List Nat} {bc : BcKernel} {ci : Nat} (hbc : bc[ci]? = some (q, p)) {ct : CtObj}
    {els : Nat} (hct : Fits (kr + kc) q els ct.data) (out : Nat → Mat)
    (hout : ∀ a, a < els → CkksSession.liftElement q p bc ci (2 ^ kr) (2 ^ kc)
      ((List.range q.length).map fun i => tablesFor kr kc ((q ++ p).getD i 0))
      ((List.range' q.length p.length).map fun i => tablesFor kr kc ((q ++ p).getD i 0)) (fun i t => ct.data.get a t i) = .ok (out a)) :
    ∃ R, liftCiphertext ct bc ci p (q.zip (q.map (tablesFor kr kc))) (p.zip (p.map (tablesFor kr kc))) (2 ^ kr) (2 ^ kc) = .ok R ∧
      R.moduli = ct.moduli ++ p ∧ R.data.e = els ∧ R.data.n = 2 ^ (kr + kc) ∧ R.data.l = (q ++ p).length ∧
      ∀ a, a < els → ∀ t i, i < (q ++ p).length → R.data.get a t i = out a i t := by
  have hTq : ∀ i, i < q.length → ((List.range q.length).map fun i => tablesFor kr kc ((q ++ p).getD i 0)).getD i Rescale.noTables =
      tablesFor kr kc (q.getD i 0) := by
    intro i hi
    rw [List.getD_eq_getElem _ _ (by simpa using hi), List.getElem_map, List.getElem_range, List.getD_append _ _ _ _ hi]
  have hTp : ∀ i, i < p.length → ((List.range' q.length p.length).map fun i => tablesFor kr kc ((q ++ p).getD i 0)).getD i Rescale.noTables =
      tablesFor kr kc (p.getD i 0) := by
    intro i hi
    rw [List.getD_eq_getElem _ _ (by simpa using hi), List.getElem_map, List.getElem_range', Nat.one_mul,
      List.getD_append_right _ _ _ _ (by omega), show q.length + i - q.length = i by omega]
  have hconv : ∀ a, ∃ conv : Mat, a < els → basisChangeMat (2 ^ kr * 2 ^ kc) q p
      (fun i => NttBat.inttFlat (2 ^ kr) (2 ^ kc) (q.getD i 0) (tablesFor kr kc (q.getD i 0)) (fun t => ct.data.get a t i)) = .ok conv ∧
      ∀ i t, i < (q ++ p).length → out a i t = if i < q.length then ct.data.get a t i else
        NttBat.nttFlat (2 ^ kr) (2 ^ kc) (p.getD (i - q.length) 0) (tablesFor kr kc (p.getD (i - q.length) 0)) (conv (i - q.length)) t := by
    intro a
    by_cases ha : a < els
    · have h1 := hout a ha
      unfold CkksSession.liftElement at h1
      rw [if_neg (by simp), hbc] at h1
      simp only [ne_eq, not_true_eq_false, or_self, if_false] at h1
      obtain ⟨conv, h2, h3⟩ := CkksObj.bind_ok_iff.1 h1
      refine ⟨conv, fun _ => ⟨?_, ?_⟩⟩
      · rw [← h2]
        refine MulKernels.basisChangeMat_congr _ _ _ _ _ (fun i hi => ?_)
        rw [hTq i hi]
      · intro i t hi
        rw [← Except.ok.inj h3]
        by_cases hq : i < q.length
        · simp only [if_pos hq]
        · simp only [if_neg hq]
          rw [hTp _ (by simp at hi; omega)]
    · exact ⟨fun _ _ => 0, fun h => absurd h ha⟩
  choose conv hconv using hconv
  have hkq : (q.zip (q.map (tablesFor kr kc))).length = q.length := by simp
  have hkp : (p.zip (p.map (tablesFor kr kc))).length = p.length := by simp
  have hn : ct.data.n = 2 ^ kr * 2 ^ kc := by rw [hct.n, pow_add]
  have hmap : (List.range ct.data.e).mapM (fun a => basisChangeMat (2 ^ kr * 2 ^ kc) q p (fun i t =>
      NttBat.inttFlat (2 ^ kr) (2 ^ kc) ((q.zip (q.map (tablesFor kr kc))).getD (pick q.length (pick q.length i)) (0, Rescale.noTables)).1
        ((q.zip (q.map (tablesFor kr kc))).getD (pick q.length (pick q.length i)) (0, Rescale.noTables)).2
        (fun t => ct.data.get a t (pick q.length (pick q.length i))) t)) =
      (.ok ((List.range ct.data.e).map conv) : Except String (List Mat)) := by
    refine mapM_eq_map _ _ _ (fun a ha => ?_)
    rw [← (hconv a (by rw [hct.e] at ha; exact List.mem_range.1 ha)).1]
    refine MulKernels.basisChangeMat_congr _ _ _ _ _ (fun i hi => ?_)
    rw [pick_eq hi, pick_eq hi, zip_kernel _ hi]
  refine ⟨⟨⟨els, 2 ^ (kr + kc), (q ++ p).length, fun a t i => if i < q.length then ct.data.get a t i else
      NttBat.nttFlat (2 ^ kr) (2 ^ kc) ((p.zip (p.map (tablesFor kr kc))).getD (pick p.length (i - q.length)) (0, Rescale.noTables)).1
        ((p.zip (p.map (tablesFor kr kc))).getD (pick p.length (i - q.length)) (0, Rescale.noTables)).2
        (fun t => ((List.range ct.data.e).map conv).getD a (fun _ _ => 0) (pick p.length (i - q.length)) t) t⟩, ct.moduli ++ p⟩,
    ?_, rfl, rfl, rfl, rfl, ?_⟩
  · unfold liftCiphertext transformArr basisChangeArr
    simp only [hkq, hkp, hct.l, bdim_self, hbc, hn, ne_eq, not_true_eq_false, if_false, bind, Except.bind, pure, Except.pure]
    rw [hmap]
    simp only [not_true_eq_false, if_false, hct.e, pow_add, List.length_append, bdim_self]
  · intro a ha t i hi
    obtain ⟨-, h2⟩ := hconv a ha
    rw [h2 i t hi]
    by_cases hq : i < q.length
    · simp only [if_pos hq]
    · have hj : i - q.length < p.length := by simp at hi; omega
      simp only [if_neg hq]
      have hg : ((List.range ct.data.e).map conv).getD a (fun _ _ => 0) = conv a := by
        rw [List.getD_eq_getElem _ _ (by simpa [hct.e] using ha), List.getElem_map, List.getElem_range]
      rw [pick_eq hj, zip_kernel _ hj, hg]

end LiftO

open LiftO

/-- C99: `lift_ciphertext` on objects: for transform kernels built for `q` and `p` and any number of elements, the call succeeds, the
limbs over `q` are unchanged and every element of the result holds, over all moduli, one integer polynomial with coefficients in
`[0, #q * Q)`. -/
theorem C99_lift_partial (kr kc : Nat) (q p : List Nat) (h : Basis kr kc q p) (bc : BcKernel) (ci : Nat) (hbc : bc[ci]? = some (q, p))
    (ct : CtObj) (els : Nat) (hct : Fits (kr + kc) q els ct.data) (hmod : ct.moduli = q) :
    ∃ Kq Kp R, nttKernel (2 ^ kr) (2 ^ kc) q = .ok Kq ∧ nttKernel (2 ^ kr) (2 ^ kc) p = .ok Kp ∧
      liftCiphertext ct bc ci p Kq Kp (2 ^ kr) (2 ^ kc) = .ok R ∧ R.moduli = q ++ p ∧ Fits (kr + kc) (q ++ p) els R.data ∧
      (∀ a, a < els → ∀ t i, i < q.length → R.data.get a t i = ct.data.get a t i) ∧
      ∀ a, a < els → ∃ D : Nat → Int, (∀ t, t < 2 ^ (kr + kc) → 0 ≤ D t ∧ D t < (q.length * q.prod : Nat)) ∧
        ∀ i, i < (q ++ p).length → ringOf (kr + kc) ((q ++ p).getD i 0) (limb R.data a i) = polyOf (kr + kc) ((q ++ p).getD i 0) D := by
  have hspec : ∀ a, ∃ out : Mat, a < els → ∃ D : Nat → Int, _ := fun a => by
    by_cases ha : a < els
    · obtain ⟨out, D, hD⟩ := liftElement_spec kr kc q p h _ (tablesOf_basis h) bc ci hbc (fun i t => ct.data.get a t i) (fits_reduced hct ha)
      exact ⟨out, fun _ => ⟨D, hD⟩⟩
    · exact ⟨fun _ _ => 0, fun hh => absurd hh ha⟩
  choose out hspec using hspec
  obtain ⟨R, r1, r2, r3, r4, r5, r6⟩ := lift_elements (kr := kr) (kc := kc) hbc hct out
    (fun a ha => by obtain ⟨D, d1, -⟩ := hspec a ha; exact d1)
  refine ⟨_, _, R, nttKernel_ok h.neQ (fun m hm => h.four m (by simp [hm])), nttKernel_ok h.neP (fun m hm => h.four m (by simp [hm])),
    r1, by rw [r2, hmod], ⟨r3, r4, r5, ?_⟩, ?_, ?_⟩
  · intro a ha t ht i hi
    obtain ⟨D, -, -, d3, -⟩ := hspec a ha
    rw [r6 a ha t i hi]
    exact d3 i hi t ht
  · intro a ha t i hi
    obtain ⟨D, -, d2, -⟩ := hspec a ha
    rw [r6 a ha t i (by simp; omega), d2 i hi]
  · intro a ha
    obtain ⟨D, -, -, -, d4, d5⟩ := hspec a ha
    refine ⟨D, d4, fun i hi => ?_⟩
    rw [← d5 i hi]
    exact ringOf_congr (h.moduli.at hi).1 (fun t _ => by unfold limb; rw [r6 a ha t i hi])

/-- C99: a lifted pair of elements represents under the same secret a polynomial congruent modulo `Q` to what the ciphertext
represents, with coefficients of absolute value at most `#q Q (1 + N ‖s‖)`. -/
theorem C99_lift_message_partial (kr kc : Nat) (q p : List Nat) (h : Basis kr kc q p) (bc : BcKernel) (ci : Nat) (hbc : bc[ci]? = some (q, p))
    (ct : CtObj) (hct : Fits (kr + kc) q 2 ct.data) (hmod : ct.moduli = q) (s : Nat → Int) (S : Int) (hS0 : 0 ≤ S)
    (hS : ∀ x, x < 2 ^ (kr + kc) → |s x| ≤ S) (m : Nat → Int)
    (hm : ∀ i, i < q.length → phase (kr + kc) q s ct.data i = polyOf (kr + kc) (q.getD i 0) m) :
    ∃ Kq Kp R, nttKernel (2 ^ kr) (2 ^ kc) q = .ok Kq ∧ nttKernel (2 ^ kr) (2 ^ kc) p = .ok Kp ∧
      liftCiphertext ct bc ci p Kq Kp (2 ^ kr) (2 ^ kc) = .ok R ∧ R.moduli = q ++ p ∧ Fits (kr + kc) (q ++ p) 2 R.data ∧
      ∃ M : Nat → Int, (∀ x, x < 2 ^ (kr + kc) → (q.prod : ℤ) ∣ M x - m x) ∧
        (∀ x, x < 2 ^ (kr + kc) → |M x| ≤ (q.length * q.prod : Nat) * (1 + 2 ^ (kr + kc) * S)) ∧
        ∀ i, i < (q ++ p).length → phase (kr + kc) (q ++ p) s R.data i = polyOf (kr + kc) ((q ++ p).getD i 0) M := by
  obtain ⟨Kq, Kp, R, h1, h2, h3, h4, h5, h6, h7⟩ := C99_lift_partial kr kc q p h bc ci hbc ct 2 hct hmod
  obtain ⟨D0, a4, a5⟩ := h7 0 (by decide)
  obtain ⟨D1, b4, b5⟩ := h7 1 (by decide)
  have hph : ∀ i, i < (q ++ p).length → phase (kr + kc) (q ++ p) s R.data i =
      polyOf (kr + kc) ((q ++ p).getD i 0) (fun x => D0 x + imul (kr + kc) D1 s x) := by
    intro i hi
    unfold phase
    rw [polyOf_add, polyOf_imul, a5 i hi, b5 i hi]
  refine ⟨Kq, Kp, R, h1, h2, h3, h4, h5, fun x => D0 x + imul (kr + kc) D1 s x, ?_, ?_, hph⟩
  · have hnd : q.Nodup := (List.nodup_append.1 h.nodup).1
    intro x hx
    refine list_prod_dvd q (moduli_coprime h.left hnd) _ ?_
    intro d hd
    obtain ⟨i, hi, rfl⟩ := List.mem_iff_getElem.1 hd
    have e1 := hph i (by simp; omega)
    have e2 := hm i hi
    have e3 : phase (kr + kc) (q ++ p) s R.data i = polyOf (kr + kc) ((q ++ p).getD i 0) m := by
      unfold phase at e2 ⊢
      rw [List.getD_append _ _ _ _ hi, ← e2]
      have l0 : limb R.data 0 i = limb ct.data 0 i := funext fun t => h6 0 (by decide) t i hi
      have l1 : limb R.data 1 i = limb ct.data 1 i := funext fun t => h6 1 (by decide) t i hi
      rw [l0, l1]
    rw [e3] at e1
    have := Int.ModEq.dvd (polyOf_inj e1 x hx)
    rwa [List.getD_append _ _ _ _ hi, List.getD_eq_getElem _ _ hi] at this
  · intro x hx
    have hD0 := a4 x hx
    have hI := imul_abs (kr + kc) D1 s (q.length * q.prod : Nat) S (by positivity) hS0
      (fun y hy => by rw [abs_of_nonneg (b4 y hy).1]; exact (b4 y hy).2.le) hS x
    refine (abs_add_le _ _).trans ?_
    rw [abs_of_nonneg hD0.1]
    refine (add_le_add hD0.2.le hI).trans (le_of_eq ?_)
    ring

/-- C99: what a successful `lift_ciphertext` requires of its arguments: the degree, and lengths along the axis of moduli, where an
axis of length one passes for any other. Neither the moduli of the ciphertext nor those of the kernels are compared; the declared
moduli are those of the ciphertext followed by `p`. -/
theorem C99_lift_requires (ct : CtObj) (bc : BcKernel) (ci : Nat) (p : List Nat) (Kq Kp : NttK) (r c : Nat) (R : CtObj)
    (h : liftCiphertext ct bc ci p Kq Kp r c = .ok R) :
    ct.data.n = r * c ∧ (Kq.length = ct.data.l ∨ Kq.length = 1) ∧ (Kp.length = p.length ∨ Kp.length = 1) ∧
      (∃ original target, bc[ci]? = some (original, target) ∧ target.length = p.length ∧
        (ct.data.l = original.length ∨ ct.data.l = 1)) ∧
      R.moduli = ct.moduli ++ p ∧ R.data.e = ct.data.e ∧ R.data.n = ct.data.n ∧ R.data.l = ct.data.l + p.length ∧
      ∀ a t i, i < ct.data.l → R.data.get a t i = ct.data.get a t i := by
  have hb : ∀ {a b : Nat}, bdim a b = .ok a → b = a ∨ b = 1 := by
    intro a b hab
    unfold bdim at hab
    split_ifs at hab with h1 h2 h3
    · exact Or.inl h1.symm
    · exact Or.inl (Except.ok.inj hab)
    · exact Or.inr h3
  have hb' : ∀ {a b : Nat}, bdim a b = .ok b → a = b ∨ a = 1 := by
    intro a b hab
    unfold bdim at hab
    split_ifs at hab with h1 h2 h3
    · exact Or.inl h1
    · exact Or.inr h2
    · exact Or.inl (Except.ok.inj hab)
  unfold liftCiphertext at h
  by_cases hn : ct.data.n = r * c
  swap
  · simp [hn, throw, throwThe, MonadExceptOf.throw, bind, Except.bind] at h
  rw [if_neg (by simpa using hn)] at h
  obtain ⟨coef, c1, h⟩ := CkksObj.bind_ok_iff.1 h
  obtain ⟨k1, k2, k3⟩ := transformArr_ok c1
  by_cases hl : coef.l = ct.data.l
  swap
  · simp [hl, throw, throwThe, MonadExceptOf.throw, bind, Except.bind] at h
  rw [if_neg (by simpa using hl)] at h
  cases hbc : bc[ci]? with
  | none => simp [hbc, throw, throwThe, MonadExceptOf.throw] at h
  | some ot =>
    obtain ⟨original, target⟩ := ot
    rw [hbc] at h
    simp only at h
    obtain ⟨conv, v1, h⟩ := CkksObj.bind_ok_iff.1 h
    obtain ⟨v2, v3⟩ := basisChangeArr_ok v1
    by_cases hp : conv.l = p.length
    swap
    · simp [hp, throw, throwThe, MonadExceptOf.throw, bind, Except.bind] at h
    rw [if_neg (by simpa using hp)] at h
    obtain ⟨dp, d1, h⟩ := CkksObj.bind_ok_iff.1 h
    obtain ⟨d2, -⟩ := transformArr_ok d1
    by_cases hd : dp.l = p.length
    swap
    · simp [hd, throw, throwThe, MonadExceptOf.throw, bind, Except.bind] at h
    rw [if_neg (by simpa using hd)] at h
    obtain rfl := Except.ok.inj h
    rw [hl] at k1 v2
    rw [hp, hd] at d2
    refine ⟨hn, hb k1, hb d2, ⟨original, target, rfl, by rw [← v3, hp], hb' v2⟩, rfl, rfl, rfl, rfl, ?_⟩
    intro a t i hi
    simp only [if_pos hi]

/-- The moduli and the limbs of a coefficient of a lifted constant, with transform kernels for the given moduli. -/
def LiftO.lifted (ct : CtObj) (q p : List Nat) : Option (List Nat × List Nat) :=
  match (do
    let Kq ← nttKernel 1 2 q
    let Kp ← nttKernel 1 2 p
    liftCiphertext ct [([12289, 40961], [65537])] 0 [65537] Kq Kp 1 2) with
  | .ok R => some (R.moduli, (List.range R.data.l).map (R.data.get 0 0))
  | .error _ => none

set_option maxRecDepth 10000 in
/-- C99 does not hold in full for `lift_ciphertext`: kernels for other moduli are accepted if there are as many, or one. The constant
20000 over `[12289, 40961]` is lifted to a number below `2Q` congruent to it. With a transform kernel for the moduli in the other order, or for
the first modulus alone, the limb over 65537 is that of another number, and there is no exception; neither 20000 nor `20000 + Q` has
that limb. A kernel for three moduli is refused. -/
theorem C99_lift_negation :
    lifted (constObj [12289, 40961] 20000) [12289, 40961] [65537] =
      some ([12289, 40961, 65537], [7711, 20000, (20000 + 12289 * 40961) % 65537]) ∧
    lifted (constObj [12289, 40961] 20000) [40961, 12289] [65537] = some ([12289, 40961, 65537], [7711, 20000, 53280]) ∧
    lifted (constObj [12289, 40961] 20000) [12289] [65537] = some ([12289, 40961, 65537], [7711, 20000, 53280]) ∧
    53280 ≠ 20000 % 65537 ∧ 53280 ≠ (20000 + 12289 * 40961) % 65537 ∧
    lifted (constObj [12289, 40961] 20000) [12289, 40961, 65537] [65537] = none := by
  decide +kernel

/-- The hypotheses of `C99_lift_partial`, `C99_lift_message_partial` and `C99_lift_requires` are met: a ciphertext of `1 + 3 X` with the
mask 1 under the secret `3 X`. -/
example : ∃ (ct : CtObj) (Kq Kp : NttK) (R : CtObj),
    liftCiphertext ct [([12289, 40961], [65537])] 0 [65537] Kq Kp 1 2 = .ok R ∧ R.moduli = [12289, 40961, 65537] ∧ R.data.e = 2 ∧
    ∃ M : Nat → Int, (503369729 : ℤ) ∣ M 0 - 1 ∧ (503369729 : ℤ) ∣ M 1 - 3 := by
  have hfit : Fits (0 + 1) [12289, 40961] 2 (⟨2, 2, 2, fun _ _ _ => 1⟩ : Arr Nat) := by
    refine ⟨rfl, rfl, rfl, ?_⟩
    intro a _ t _ i hi
    simp only [List.length_cons, List.length_nil] at hi
    obtain rfl | rfl : i = 0 ∨ i = 1 := by omega
    all_goals simp
  obtain ⟨Kq, Kp, R, -, -, h3, h4, h5, M, h6, -⟩ := C99_lift_message_partial 0 1 [12289, 40961] [65537] basis_example
    [([12289, 40961], [65537])] 0 rfl ⟨_, [12289, 40961]⟩ hfit rfl (fun x => if x = 1 then 3 else 0) 3 (by decide)
    (fun x _ => by by_cases hx : x = 1 <;> simp [hx]) (fun x => (if x = 0 then 1 else 0) + (if x = 1 then 3 else 0))
    (fun i hi => by
      unfold phase limb
      rw [polyOf_add, polyOf_one, ringOf_const (basis_example.left.at hi).1]
      simp)
  exact ⟨_, Kq, Kp, R, h3, h4, h5.e, M, by simpa using h6 0 (by decide), by simpa using h6 1 (by decide)⟩

end Verif.Props
