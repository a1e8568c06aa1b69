import Verif.Lemmas.RelinBatch
import Verif.Props.CkksObj

/-!
# Property C101: `relinearize` on a batch of ciphertexts
-/

namespace Verif.Props
open Verif.Barrett Verif.Slots Verif.CkksKeys Verif.CkksMul Verif.RescaleArr Verif.RelinBatch

namespace Batch

/-- The array of shape `(*lead, e, n, l)` that holds the data of `D 0`, `D 1`, … in the order of the leading axes: the `stack` of the
arrays for one leading axis, and a `reshape` of it for several. -/
def stack (lead : List Nat) (e n l : Nat) (D : Nat → Arr Nat) : BArr Nat := BArr.of lead e n l (fun b a t i => (D b).get a t i)

/-- The ciphertext at the flat leading index `b`, that is `data[b]` for one leading axis. -/
def entry (A : BArr Nat) (b : Nat) : Arr Nat := ⟨A.e, A.n, A.l, fun a t i => A.at b a t i⟩

/-- Shape of the result and element 0 of the first ciphertext. -/
def view (x : Except String (BArr Nat)) : Option (List Nat × List Nat) :=
  match x with
  | .ok A => some (A.lead ++ [A.e, A.n, A.l], (List.range (A.n * A.l)).map (fun x => A.get 0 0 x))
  | .error _ => none

/-- A key array whose entries are all `v`. -/
def constKey (v : Nat) : Arr Nat := ⟨2, 2, 3, fun _ _ _ => v⟩

/-- The kernel of the example: ciphertexts over `12289` and `40961`, extended by `65537`, degree two. -/
def run (ct : BArr Nat) (evk : CkksObj.EvkObj) : Except String (BArr Nat) := do
  let K ← precomputeMul [12289, 40961, 65537] [65537] 2 1 2 1
  RelinBatch.relinearize (some K) ct evk

end Batch
open Batch

/-- C101: a batch is relinearised entry by entry: with a kernel built by `precompute_constants` and for every shape of the leading
axes, when `relinearize` succeeds on each ciphertext of the batch (the hypotheses under which it does so and what it returns are
those of C89), it succeeds on the batch and entry `b` of the result is the result for entry `b`. Missing for the full statement of
C101: a batch that does not fit is not always refused (`C101_negation`). -/
theorem C101_entrywise_partial (original extend : List Nat) (dnum r c deg : Nat) (K : CkksMul.Kernel)
    (hK : precomputeMul original extend dnum r c deg = .ok K) (hdeg : 1 < r * c) (lead : List Nat) (hne : 0 < lead.prod)
    (e n l : Nat) (D R : Nat → CtObj) (hD : ∀ b, b < lead.prod → (D b).data.e = e ∧ (D b).data.n = n ∧ (D b).data.l = l)
    (evk : CkksObj.EvkObj) (hR : ∀ b, b < lead.prod → CkksObj.relinearize (some K) (D b) evk = .ok (R b)) :
    ∃ X, RelinBatch.relinearize (some K) (stack lead e n l (fun b => (D b).data)) evk = .ok X ∧ X.lead = lead ∧ X.e = 2 ∧ X.n = n ∧
      X.l = l ∧ ∀ b, b < lead.prod → ∀ a, a < 2 → ∀ t, t < n → ∀ i, i < l → (entry X b).get a t i = (R b).data.get a t i := by
  have hs := MulKernels.precomputeMul_shape hK
  obtain ⟨hpi, hN, hKr, hKc⟩ := precomputeMul_more hK
  rw [← hKr, ← hKc] at hdeg
  have key : ∀ b, b < lead.prod → 3 ≤ e ∧ l = K.moduliQ.length ∧ n = K.r * K.c ∧
      (evk.a.n = K.r * K.c ∨ evk.a.n = 1) ∧ (evk.b.n = K.r * K.c ∨ evk.b.n = 1) ∧
      (evk.a.l = K.moduliQ.length + K.moduliP.length ∨ evk.a.l = 1) ∧
      (evk.b.l = K.moduliQ.length + K.moduliP.length ∨ evk.b.l = 1) ∧
      ∃ r, CkksMul.relinearize (some K) (fun i p => (D b).data.get 0 p i) (fun i p => (D b).data.get 1 p i)
        (fun i p => (D b).data.get 2 p i)
        ⟨(List.range evk.a.e).map (CkksObj.keyPart evk.a), (List.range evk.b.e).map (CkksObj.keyPart evk.b), evk.moduli⟩ = .ok r ∧
        (R b).data = ⟨2, K.r * K.c, K.moduliQ.length, fun a p i => if a = 0 then r.1 i p else r.2 i p⟩ := by
    intro b hb
    have h := hR b hb
    obtain ⟨d1, d2, d3⟩ := hD b hb
    unfold CkksObj.relinearize at h
    simp only [d1, d2, d3] at h
    split at h
    · exact absurd h (by simp)
    split at h
    · exact absurd h (by simp)
    split at h
    · exact absurd h (by simp)
    split at h
    · exact absurd h (by simp)
    split at h
    · exact absurd h (by simp)
    rename_i h1 h2 h3 h4 h5
    obtain ⟨x, hx, h6⟩ := CkksObj.bind_ok_iff.1 h
    refine ⟨not_lt.1 h1, not_not.1 h2, not_not.1 h3, by omega, by omega, by omega, by omega, x, hx, ?_⟩
    rw [← Except.ok.inj h6]
  obtain ⟨k1, k2, k3, k4, k5, k6, k7, x0, hx0, -⟩ := key 0 hne
  have hkeys : 0 < evk.a.e ∧ 0 < evk.b.e := by
    have hl := hx0
    unfold CkksMul.relinearize relinearizeParts at hl
    simp only [Option.map_some, Option.getD_some, clampKeys] at hl
    by_cases hlen : (clampParts (K.control.length - 1) ((List.range evk.a.e).map (CkksObj.keyPart evk.a))).length < K.control.length - 1 ∨
        (clampParts (K.control.length - 1) ((List.range evk.b.e).map (CkksObj.keyPart evk.b))).length < K.control.length - 1
    · simp only [hlen, if_true] at hl
      simp [bind, Except.bind, throw, throwThe, MonadExceptOf.throw] at hl
    · constructor <;> by_contra h0
      · have h0 : evk.a.e = 0 := by omega
        apply hlen
        left
        rw [h0]
        simp [clampParts]
        omega
      · have h0 : evk.b.e = 0 := by omega
        apply hlen
        right
        rw [h0]
        simp [clampParts]
        omega
  have hx : ∀ b, ∃ x, b < lead.prod → CkksMul.relinearize (some K) (fun i p => (D b).data.get 0 p i) (fun i p => (D b).data.get 1 p i)
      (fun i p => (D b).data.get 2 p i) ⟨(List.range evk.a.e).map (CkksObj.keyPart evk.a),
        (List.range evk.b.e).map (CkksObj.keyPart evk.b), evk.moduli⟩ = .ok x ∧
        (R b).data = ⟨2, K.r * K.c, K.moduliQ.length, fun a p i => if a = 0 then x.1 i p else x.2 i p⟩ := by
    intro b
    by_cases hb : b < lead.prod
    · obtain ⟨-, -, -, -, -, -, -, x, hx⟩ := key b hb
      exact ⟨x, fun _ => hx⟩
    · exact ⟨(fun _ _ => 0, fun _ _ => 0), fun h => absurd h hb⟩
  choose x hx using hx
  subst k2 k3
  obtain ⟨X, hX, rX⟩ := relinearize_rep hs hpi hN (by omega) (ct := stack lead e (K.r * K.c) K.moduliQ.length (fun b => (D b).data))
    (evk := evk) (lead := lead) (e := e) k1
    (Nat.mul_pos hne (by omega)) (d := fun b k i t => (D b).data.get k t i) (rep_of lead e _ _ _)
    ⟨hkeys.1, k4, by rw [List.length_append]; exact k6⟩ ⟨hkeys.2, k5, by rw [List.length_append]; exact k7⟩
    (R := x) (fun b hb => (hx b hb).1)
  refine ⟨X, hX, rX.lead, rX.e, rX.n, rX.l, ?_⟩
  intro b hb a ha t _ i hi
  show X.at b a t i = _
  rw [rX.val b hb a ha i hi t, (hx b hb).2]
  dsimp only
  split <;> rfl

/-- C101: a batch of products: the ciphertexts `A b` and `C b` are multiplied one by one, their products are put into one array with
any leading axes, and one call of `relinearize` returns an array whose entry `b` decrypts, modulo every limb, to the product of
what `A b` and `C b` represent, up to the noise of C45 for that entry. -/
theorem C101_products_partial (kr kc : Nat) (hk : 0 < kr + kc) (q p : List Nat) (h : Basis kr kc q p) (dnum : Nat) (hd : 0 < dnum)
    (original : List Nat) (deg : Nat) (hdrop : Dropped original deg q)
    (s : Nat → Int) (hs : Binary s) (sk : CkksObj.SkObj) (hsk : Obj.Holds (kr + kc) s sk) (hqsk : q <+: sk.moduli)
    (lead : List Nat) (hne : 0 < lead.prod) (A C : Nat → CtObj) (eA eC : Nat) (h2A : 2 ≤ eA) (h2C : 2 ≤ eC)
    (hA : ∀ b, b < lead.prod → Obj.Fits (kr + kc) q eA (A b).data) (hC : ∀ b, b < lead.prod → Obj.Fits (kr + kc) q eC (C b).data)
    (hmA : ∀ b, b < lead.prod → (A b).moduli = q)
    (src : Mat) (hsrc : ∀ i, i < q.length → ringOf (kr + kc) (q.getD i 0) (src i) = polyOf (kr + kc) (q.getD i 0) s ^ 2)
    (e : Nat → Nat → Int) (B : Int) (hB0 : 0 ≤ B) (hB : ∀ part, part < dnum → ∀ t, t < 2 ^ (kr + kc) → |e part t| ≤ B)
    (evk : CkksObj.EvkObj) (hka : Obj.Fits (kr + kc) (q ++ p) dnum evk.a) (hkb : Obj.Fits (kr + kc) (q ++ p) dnum evk.b)
    (hkey : SwitchKey (kr + kc) q p dnum s src e (Obj.keysOf evk)) :
    ∃ K, precomputeMul original p dnum (2 ^ kr) (2 ^ kc) deg = .ok K ∧ ∃ T : Nat → CtObj,
      (∀ b, b < lead.prod → CkksObj.tensorMultiply (some K) (A b) (C b) = .ok (T b)) ∧
      ∃ X, RelinBatch.relinearize (some K) (stack lead 3 (2 ^ (kr + kc)) q.length (fun b => (T b).data)) evk = .ok X ∧ X.lead = lead ∧
        ∀ b, b < lead.prod → ∃ P, CkksObj.decrypt sk ⟨entry X b, q⟩ = .ok P ∧ P.moduli = q ∧ Obj.Fits (kr + kc) q 1 P.data ∧
          ∃ η : Nat → Int,
            (∀ t, t < 2 ^ (kr + kc) → (p.prod : Int) * |η t| ≤
              (∑ part ∈ Finset.range dnum,
                2 ^ (kr + kc) * (((partModuli q dnum part).length * (partModuli q dnum part).prod : Nat) : Int) * B) +
              ((p.length * p.prod : Nat) : Int) * (1 + 2 ^ (kr + kc))) ∧
            ∀ i, i < q.length →
              polyOf (kr + kc) (q.getD i 0) (fun t => (P.data.get 0 t i : Int)) =
                Obj.phase (kr + kc) q s (A b).data i * Obj.phase (kr + kc) q s (C b).data i + polyOf (kr + kc) (q.getD i 0) η := by
  have one := fun b (hb : b < lead.prod) => C89_multiply_partial kr kc q p h dnum hd original deg hdrop s hs sk hsk hqsk (A b) (C b)
    eA eC h2A h2C (hA b hb) (hC b hb) (hmA b hb) src hsrc e B hB0 hB evk hka hkb hkey
  obtain ⟨K, -, -, -, hK, -⟩ := one 0 hne
  refine ⟨K, hK, ?_⟩
  have hTR : ∀ b, ∃ T R, b < lead.prod → CkksObj.tensorMultiply (some K) (A b) (C b) = .ok T ∧
      CkksObj.relinearize (some K) T evk = .ok R ∧ Obj.Fits (kr + kc) q 3 T.data ∧ R.moduli = q ∧ Obj.Fits (kr + kc) q 2 R.data ∧
      ∃ η : Nat → Int,
            (∀ t, t < 2 ^ (kr + kc) → (p.prod : Int) * |η t| ≤
              (∑ part ∈ Finset.range dnum,
                2 ^ (kr + kc) * (((partModuli q dnum part).length * (partModuli q dnum part).prod : Nat) : Int) * B) +
              ((p.length * p.prod : Nat) : Int) * (1 + 2 ^ (kr + kc))) ∧
            ∀ i, i < q.length → Obj.phase (kr + kc) q s R.data i =
                Obj.phase (kr + kc) q s (A b).data i * Obj.phase (kr + kc) q s (C b).data i + polyOf (kr + kc) (q.getD i 0) η := by
    intro b
    by_cases hb : b < lead.prod
    · obtain ⟨K', T, R, P, hK', hT, hR, m1, m2, hP, -, -, η, n1, n2⟩ := one b hb
      obtain rfl : K' = K := Except.ok.inj (hK'.symm.trans hK)
      have hlt : ∀ m ∈ q, 0 < m ∧ m < 2 ^ 31 := fun m hm =>
        ⟨(h.left.ntt m hm).prime.pos, (h.four m (List.mem_append_left _ hm)).good.lt⟩
      obtain ⟨T', t1, -, t3, -⟩ := C89_tensor (kr + kc) K' q hlt (A b) (C b) eA eC (hA b hb) (hC b hb) h2A h2C (hmA b hb)
      obtain rfl : T' = T := Except.ok.inj (t1.symm.trans hT)
      refine ⟨T', R, fun _ => ⟨hT, hR, t3, m1, m2, η, n1, ?_⟩⟩
      obtain ⟨P', d1, -, -, d4⟩ := C89_decrypt (kr + kc) s sk hsk R 2 (le_refl 2) (by rw [m1]; exact hqsk) (by rw [m1]; exact h.left)
        (by rw [m1]; exact m2)
      obtain rfl : P' = P := Except.ok.inj (d1.symm.trans hP)
      rw [m1] at d4
      intro i hi
      rw [← d4 i hi]
      exact n2 i hi
    · exact ⟨A b, A b, fun h => absurd h hb⟩
  choose T R hTR using hTR
  refine ⟨T, fun b hb => (hTR b hb).1, ?_⟩
  have hdeg : 1 < 2 ^ kr * 2 ^ kc := by rw [← pow_add]; exact Nat.one_lt_two_pow (by omega)
  obtain ⟨X, hX, x1, x2, x3, x4, x5⟩ := C101_entrywise_partial original p dnum (2 ^ kr) (2 ^ kc) deg K hK hdeg lead hne 3 (2 ^ (kr + kc))
    q.length T R (fun b hb => ⟨(hTR b hb).2.2.1.e, (hTR b hb).2.2.1.n, (hTR b hb).2.2.1.l⟩) evk (fun b hb => (hTR b hb).2.1)
  refine ⟨X, hX, x1, fun b hb => ?_⟩
  obtain ⟨-, -, -, m1, m2, η, n1, n2⟩ := hTR b hb
  have hfit : Obj.Fits (kr + kc) q 2 (entry X b) := ⟨x2, x3, x4, fun a ha t ht i hi => by
    rw [x5 b hb a ha t ht i hi]; exact m2.red a ha t ht i hi⟩
  obtain ⟨P, d1, d2, d3, d4⟩ := C89_decrypt (kr + kc) s sk hsk ⟨entry X b, q⟩ 2 (le_refl 2) hqsk h.left hfit
  refine ⟨P, d1, d2, d3, η, n1, fun i hi => ?_⟩
  rw [d4 i hi, ← n2 i hi]
  unfold Obj.phase
  have hlimb : ∀ a, a < 2 → ringOf (kr + kc) (q.getD i 0) (Obj.limb (entry X b) a i) =
      ringOf (kr + kc) (q.getD i 0) (Obj.limb (R b).data a i) := by
    intro a ha
    apply ringOf_congr (h.left.at hi).1
    intro t ht
    exact congrArg _ (x5 b hb a ha t ht i hi)
  rw [hlimb 0 (by omega), hlimb 1 (by omega)]

/-- C101: what a successful call requires: a batch that is not empty, three elements, the degree of the kernel, a key with parts
that can be broadcast, and along the axis of moduli a length that broadcasts with that of the kernel. -/
theorem C101_requires (original extend : List Nat) (dnum r c deg : Nat) (K : CkksMul.Kernel)
    (hK : precomputeMul original extend dnum r c deg = .ok K) (ct : BArr Nat) (evk : CkksObj.EvkObj) (X : BArr Nat)
    (h : RelinBatch.relinearize (some K) ct evk = .ok X) :
    0 < ct.lead.prod ∧ 3 ≤ ct.e ∧ ct.n = r * c ∧
      (ct.l = K.moduliQ.length ∨ ct.l = 1 ∨ K.moduliQ.length = 1) ∧ 0 < evk.a.e ∧ 0 < evk.b.e ∧
      (evk.a.n = r * c ∨ evk.a.n = 1 ∨ r * c = 1) ∧ (evk.b.n = r * c ∨ evk.b.n = 1 ∨ r * c = 1) ∧
      X.lead = ct.lead ∧ X.e = 2 := by
  have hs := MulKernels.precomputeMul_shape hK
  obtain ⟨hpi, hN, hKr, hKc⟩ := precomputeMul_more hK
  rw [← hKr, ← hKc]
  have hbd : ∀ {a b d : Nat}, bdim a b = .ok d → a = b ∨ a = 1 ∨ b = 1 := by
    intro a b d hab
    unfold bdim at hab
    split_ifs at hab <;> simp_all
  unfold RelinBatch.relinearize at h
  simp only at h
  obtain ⟨rows, hrows, h⟩ := CkksObj.bind_ok_iff.1 h
  obtain ⟨coeffs, hco, h⟩ := CkksObj.bind_ok_iff.1 h
  obtain ⟨acc, hacc, h⟩ := CkksObj.bind_ok_iff.1 h
  unfold reshapeRows at hrows
  split at hrows
  · simp at hrows
  rename_i hnz
  split at hrows
  · simp at hrows
  rename_i hdiv
  have hrows := Except.ok.inj hrows
  have he : 3 ≤ ct.e ∧ 0 < ct.lead.prod ∧ 0 < K.r * K.c := by
    have hx : ¬ ct.lead.prod * (min 3 ct.e - 2) * (K.r * K.c) = 0 := hnz
    simp only [Nat.mul_eq_zero, not_or] at hx
    refine ⟨by omega, Nat.pos_of_ne_zero hx.1.1, Nat.mul_pos (by omega) (by omega)⟩
  -- the first part
  obtain ⟨M, hM⟩ : ∃ M, K.control.length - 1 = M + 1 := ⟨K.control.length - 2, by omega⟩
  rw [hM, List.range_eq_range', List.range'_succ, loop] at hacc
  obtain ⟨ext, hext, hacc⟩ := CkksObj.bind_ok_iff.1 hacc
  obtain ⟨bb, hbb, hacc⟩ := CkksObj.bind_ok_iff.1 hacc
  obtain ⟨aa, haa, hacc⟩ := CkksObj.bind_ok_iff.1 hacc
  unfold RelinBatch.extendPart at hext
  simp only at hext
  obtain ⟨conv, hconv, hext⟩ := CkksObj.bind_ok_iff.1 hext
  obtain ⟨conv2, hconv2, hext⟩ := CkksObj.bind_ok_iff.1 hext
  obtain ⟨ev, hev, hext⟩ := CkksObj.bind_ok_iff.1 hext
  obtain ⟨whole, hwhole, hext⟩ := CkksObj.bind_ok_iff.1 hext
  have hn2 : conv2.n = K.r * K.c := by
    unfold reshapeRows at hconv2
    split_ifs at hconv2
    rw [← Except.ok.inj hconv2]
  have hn3 : ev.n = K.r * K.c := by
    unfold transform at hev
    obtain ⟨l, -, hev⟩ := CkksObj.bind_ok_iff.1 hev
    rw [← Except.ok.inj hev]
    exact hn2
  have hw : ct.n = K.r * K.c ∧ whole.n = K.r * K.c := by
    unfold concatL at hwhole
    split_ifs at hwhole with hc
    simp only [not_or, not_not] at hc
    have h1 : ct.n = ev.n := hc.2.2
    rw [← Except.ok.inj hwhole]
    exact ⟨h1.trans hn3, h1.trans hn3⟩
  have hextn : ext.n = K.r * K.c := by rw [← Except.ok.inj hext]; exact hw.2
  have hkey : ∀ {A : Arr Nat} {Y : BArr Nat}, keyProduct K A 0 ext = .ok Y → 0 < A.e ∧ (A.n = K.r * K.c ∨ A.n = 1 ∨ K.r * K.c = 1) := by
    intro A Y hY
    unfold keyProduct RelinBatch.keyPart at hY
    obtain ⟨key, hkey, hY⟩ := CkksObj.bind_ok_iff.1 hY
    obtain ⟨n, hn, hY⟩ := CkksObj.bind_ok_iff.1 hY
    rw [hextn] at hn
    split_ifs at hkey with h0
    refine ⟨by omega, ?_⟩
    rcases hbd hn with h1 | h1 | h1 <;> omega
  have hl : ct.l = K.moduliQ.length ∨ ct.l = 1 ∨ K.moduliQ.length = 1 := by
    unfold transform at hco
    obtain ⟨l, hl, -⟩ := CkksObj.bind_ok_iff.1 hco
    have h1 : rows.l = ct.l := by
      rw [← hrows]
      show ct.n * ct.l / (K.r * K.c) = ct.l
      rw [hw.1, Nat.mul_div_cancel_left _ he.2.2]
    have h2 : (nttCurrent K).length = K.moduliQ.length := by
      have := hs.tables
      rw [List.length_append] at this
      simp [nttCurrent]
      omega
    rw [h1, h2] at hl
    exact hbd hl
  cases acc with
  | none => simp [throw, throwThe, MonadExceptOf.throw] at h
  | some xy =>
    simp only at h
    obtain ⟨ks0, -, h⟩ := CkksObj.bind_ok_iff.1 h
    obtain ⟨ks1, -, h⟩ := CkksObj.bind_ok_iff.1 h
    obtain ⟨core, -, h⟩ := CkksObj.bind_ok_iff.1 h
    obtain ⟨down, -, h⟩ := CkksObj.bind_ok_iff.1 h
    obtain ⟨sum, hsum, h⟩ := CkksObj.bind_ok_iff.1 h
    unfold RelinBatch.map2 at hsum
    split at hsum
    · simp [bind, Except.bind, throw, throwThe, MonadExceptOf.throw] at hsum
    obtain ⟨n, -, hsum⟩ := CkksObj.bind_ok_iff.1 hsum
    obtain ⟨l, -, hsum⟩ := CkksObj.bind_ok_iff.1 hsum
    unfold mapRow at h
    obtain ⟨l', -, h⟩ := CkksObj.bind_ok_iff.1 h
    refine ⟨he.2.1, he.1, hw.1, hl, (hkey haa).1, (hkey hbb).1, (hkey haa).2, (hkey hbb).2, ?_, ?_⟩
    · rw [← Except.ok.inj h, ← Except.ok.inj hsum]
      rfl
    · rw [← Except.ok.inj h, ← Except.ok.inj hsum]
      show min 2 ct.e - 0 = 2
      omega

/-- C101, negation of the full statement: an encryption of zero with one limb instead of two is not refused: the limb is repeated,
the places of the missing one are filled with `2^32 - 1`, and the result has two limbs that are not zero. With both limbs the
result is zero, and three limbs are refused. -/
theorem C101_negation :
    view (run (stack [2] 3 2 1 (fun _ => ⟨3, 2, 1, fun _ _ _ => 0⟩)) ⟨constKey 1, constKey 1, []⟩) =
      some ([2, 2, 2, 2], [0, 24574, 0, 24574]) ∧
    view (run (stack [2] 3 2 2 (fun _ => ⟨3, 2, 2, fun _ _ _ => 0⟩)) ⟨constKey 1, constKey 1, []⟩) =
      some ([2, 2, 2, 2], [0, 0, 0, 0]) ∧
    view (run (stack [2] 3 2 3 (fun _ => ⟨3, 2, 3, fun _ _ _ => 0⟩)) ⟨constKey 1, constKey 1, []⟩) = none := by
  refine ⟨?_, ?_, ?_⟩ <;> decide +kernel

/-- The hypotheses of `C101_products_partial` are met by six different ciphertexts in two leading axes, and its calls meet those of
`C101_entrywise_partial` and `C101_requires`. -/
example : ∃ (K : CkksMul.Kernel) (A C T : Nat → CtObj) (evk : CkksObj.EvkObj) (X : BArr Nat),
    precomputeMul [12289, 40961, 65537] [65537] 2 1 2 1 = .ok K ∧
    (∀ b, b < 6 → CkksObj.tensorMultiply (some K) (A b) (C b) = .ok (T b)) ∧
    RelinBatch.relinearize (some K) (stack [2, 3] 3 2 2 (fun b => (T b).data)) evk = .ok X ∧
    (A 1).data.get 0 1 1 ≠ (A 2).data.get 0 1 1 := by
  obtain ⟨s, sk, evk, src, e, A, C, h1, -, h2, h3, h4, h5, h6, h7, h8, h9, h10, h11, h12, h13⟩ := Obj.setting
  obtain ⟨K, hK, T, hT, X, hX, -⟩ := C101_products_partial 0 1 (by decide) [12289, 40961] [65537] basis_example 2 (by decide) _ 1 h13 s h1
    sk h2 h3 [2, 3] (by decide) (fun b => Obj.constObj [12289, 40961] b) (fun _ => C) 2 2 (by decide) (by decide)
    (fun b _ => ⟨rfl, rfl, rfl, fun a _ p _ i hi => by
      have : 0 < ([12289, 40961] : List Nat).getD i 0 := by
        revert hi; revert i; decide
      show (if a = 0 then b % ([12289, 40961] : List Nat).getD i 0 else 0) < _
      split
      · exact Nat.mod_lt _ this
      · exact this⟩)
    (fun _ _ => h10) (fun _ _ => rfl) src h4 e 3 (by decide) h5 evk h6 h7 h8
  exact ⟨K, _, _, T, evk, X, hK, hT, hX, by decide⟩

/-- **C101, refused shapes.** The change of basis refuses an array whose number of limbs is neither the number of
original moduli nor one, whatever its entries; also when there is a single original modulus, where the elementwise
product alone would broadcast. -/
theorem C101_limbs_refused (original target : List Nat) (A : BArr Nat) (h : A.l ≠ original.length) (h1 : A.l ≠ 1) :
    ∃ e, basisChange original target A = .error e := by
  unfold basisChange bdim
  rw [if_neg h, if_neg h1]
  by_cases ho : original.length = 1
  · rw [if_pos ho]
    exact ⟨_, by simp only [bind, Except.bind]; rw [if_pos h]; rfl⟩
  · rw [if_neg ho]
    exact ⟨_, rfl⟩

example : ∃ e, basisChange [17] [41, 97] (BArr.of [2] 1 4 3 (fun _ _ _ i => i)) = .error e :=
  C101_limbs_refused _ _ _ (by decide) (by decide)

end Verif.Props
