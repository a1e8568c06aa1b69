import Verif.Lemmas.EcRnsRun
import Verif.Lemmas.EcRnsAddWitness

/-!
# Long runs of the XYZZ formulas on residue vectors in the kernel

As in `EcRnsRun`; the addition returns `false` when the estimate of its last product is not rounded up.
-/

namespace Verif.EcRns

open Verif.EcChunks Verif.Pippenger

/-- The product of the moduli. -/
def BLIT : Nat := 24000162522312284133394248408483878360954099654411350617417684738680125074417834441316886944592721880746337661165914580916785195380904197587840490211609376184659719564296768733787708709725573279814899154435837242303920790228061747491962880

theorem BLIT_eq : BIGM = BLIT := by decide +kernel

attribute [local irreducible] SUBLIT DLIT MODULI RNS_T MODULI_SUB TWIST_D_RNS BIGM FACTORS TOTAL exactMatrix modMul P
  SHLIT SQES TLIT BLIT

/-- `add_sub_rns_var` with four operands. -/
noncomputable def add4K {β : Type} (v w x y : List Nat) (k : List Nat → β) : β :=
  zipK Nat.add w v fun l => zipK Nat.add x l fun l => zipK Nat.add y l fun l => zipK foldG TLIT l k

theorem add4K_spec {v w x y : List Nat} (hv : Lim' v) (hw : Lim' w) (hx : Lim' x) (hy : Lim' y) :
    (∀ {β : Type} (k : List Nat → β), add4K v w x y k = k (addSubVals v [w, x, y])) ∧ Lim (addSubVals v [w, x, y]) := by
  have h0 := zip_lt add_lt w v hw.2 hv.2
  have h0' := zip_lt add_lt x _ hx.2 h0
  have h1 : ∀ z ∈ List.zipWith Nat.add y (List.zipWith Nat.add x (List.zipWith Nat.add w v)), z < 2 ^ 24 := by
    intro z hz
    exact (zip_lt add_lt y _ hy.2 h0' z hz).trans (by norm_num)
  have e : addSubVals v [w, x, y] =
      List.zipWith foldG TLIT (List.zipWith Nat.add y (List.zipWith Nat.add x (List.zipWith Nat.add w v))) := by
    unfold addSubVals
    rw [List.foldl_cons, List.foldl_cons, List.foldl_cons, List.foldl_nil, zadd_eq (by norm_num) w v hw.2 hv.2,
      zadd_eq (by norm_num) x _ hx.2 h0, zadd_eq (by norm_num) y _ hy.2 h0', TLIT_eq,
      zip_fold (2 ^ 24) foldG_eq _ _ TLIT_lt h1]
  refine ⟨fun k => ?_, ?_⟩
  · unfold add4K
    rw [zipK_eq, zipK_eq, zipK_eq, zipK_eq, e]
  · rw [e, zip_fold (2 ^ 24) foldG_eq _ _ TLIT_lt h1]
    refine ⟨?_, zip_lt foldAdd_lt _ _ TLIT_lt h1⟩
    rw [List.length_zipWith, List.length_zipWith, List.length_zipWith, List.length_zipWith, TLIT_len, hv.1, hw.1, hx.1,
      hy.1]
    rfl

/-- The estimate for the product of `a` and `b` is rounded up. -/
noncomputable def rupK (a b : List Nat) (k : Bool) : Bool :=
  zipK Nat.mul a b fun l => zipK foldF TLIT l fun l => dotK l SHLIT 0 fun s => dotK l SQES 0 fun e =>
    Bool.rec false k (Nat.ble (Nat.succ (Nat.div s BLIT)) (Nat.div e 65536))

theorem SHLIT_len : SHLIT.length = 100 := by decide +kernel

theorem rupK_true {a b : List Nat} {k : Bool} (ha : Lim a) (hb : Lim b) (h : rupK a b k = true) :
    RoundsUp (exactMatrix P) (mulUnreduced a b) ∧ k = true := by
  have hz : List.zipWith Nat.mul a b = List.zipWith (fun x y => x * y % 2 ^ 32) a b := by
    refine zip_congr (B := 65536) (C := 65536) (fun x y hx hy => ?_) a b ha.2 hb.2
    have : x * y ≤ 65535 * 65535 := Nat.mul_le_mul (by omega) (by omega)
    show x * y = _
    rw [Nat.mod_eq_of_lt (by omega)]
  have hlt : ∀ v ∈ List.zipWith (fun x y => x * y % 2 ^ 32) a b, v < 2 ^ 32 :=
    zip_lt (B := 65536) (C := 65536) (fun _ _ _ _ => Nat.mod_lt _ (by norm_num)) a b ha.2 hb.2
  have e : mulUnreduced a b = List.zipWith foldF TLIT (List.zipWith Nat.mul a b) := by
    unfold mulUnreduced redInternal
    rw [hz, zip_fold (2 ^ 32) foldF_eq _ _ TLIT_lt hlt, TLIT_eq]
  have hl : (mulUnreduced a b).length = 50 := by
    rw [e, List.length_zipWith, List.length_zipWith, TLIT_len, ha.1, hb.1]; rfl
  have hl2 : ∀ v ∈ mulUnreduced a b, v < 65536 := by
    rw [e, hz, zip_fold (2 ^ 32) foldF_eq _ _ TLIT_lt hlt]
    exact zip_lt foldRed_lt TLIT _ TLIT_lt hlt
  unfold rupK at h
  rw [zipK_eq, zipK_eq, ← e, dotK_eq _ _ _ _ (by rw [SHLIT_len, hl]) hl2,
    dotK_eq _ _ _ _ (by rw [PACKS_le.2.1, hl]) hl2, Nat.zero_add, Nat.zero_add] at h
  cases hc : Nat.ble (Nat.succ (Nat.div (dot (bytes (mulUnreduced a b)) SHLIT) BLIT))
      (Nat.div (dot (bytes (mulUnreduced a b)) SQES) 65536) with
  | false => rw [hc] at h; cases h
  | true =>
    rw [hc] at h
    refine ⟨roundsUp_of hl ?_, h⟩
    rw [BLIT_eq]
    exact Nat.le_of_ble_eq_true hc

/-- `padd_rns_xyzz_pack` with the check. -/
noncomputable def paddXK (p q : Pt) (k : Pt → Bool) : Bool :=
  mulK p.1 q.2.2.1 fun u1 => mulK p.2.1 q.2.2.2 fun s1 => mulK p.2.2.1 q.2.2.1 fun zz => mulK p.2.2.2 q.2.2.2 fun zzz =>
  mulK p.2.2.1 q.1 fun u2 => mulK p.2.2.2 q.2.1 fun s2 => zipK negF SUBLIT u1 fun nu1 => zipK negF SUBLIT s1 fun ns1 =>
  addK u2 nu1 fun pv => addK s2 ns1 fun r => mulK pv pv fun pp => mulK r r fun rr => mulK pv pp fun ppp =>
  mulK u1 pp fun qv => zipK negF SUBLIT ppp fun nppp => zipK negF SUBLIT qv fun nq =>
  add4K rr nppp nq nq fun x3 => zipK negF SUBLIT x3 fun nx3 => addK qv nx3 fun qx => rupK r qx (
  mulK s1 ppp fun sp => mulK r qx fun rq => zipK negF SUBLIT sp fun nsp => addK rq nsp fun y3 =>
  mulK zz pp fun zz3 => mulK zzz ppp fun zzz3 => k (x3, y3, zz3, zzz3))

theorem paddXK_true {p q : Pt} {k : Pt → Bool} (hp : LimPt p) (hq : LimPt q) (h : paddXK p q k = true) :
    RoundsUp (exactMatrix P) (mulUnreduced (lastFactors (exactMatrix P) p q).1 (lastFactors (exactMatrix P) p q).2) ∧
      LimPt (paddXyzz (exactMatrix P) p q) ∧ k (paddXyzz (exactMatrix P) p q) = true := by
  obtain ⟨x1, y1, z1, w1⟩ := p
  obtain ⟨x2, y2, z2, w2⟩ := q
  obtain ⟨hx1, hy1, hz1, hw1⟩ := hp
  obtain ⟨hx2, hy2, hz2, hw2⟩ := hq
  unfold paddXK at h
  dsimp only at hx1 hy1 hz1 hw1 hx2 hy2 hz2 hw2 h
  have u1 := mul_lim hx1 hz2
  have s1 := mul_lim hy1 hw2
  have zz := mul_lim hz1 hz2
  have zzz := mul_lim hw1 hw2
  have u2 := mul_lim hz1 hx2
  have s2 := mul_lim hw1 hy2
  have pv := addK_spec u2.to (neg_lim u1)
  have r := addK_spec s2.to (neg_lim s1)
  have pp := mul_lim pv.2 pv.2
  have rr := mul_lim r.2 r.2
  have ppp := mul_lim pv.2 pp
  have qv := mul_lim u1 pp
  have x3 := add4K_spec rr.to (neg_lim ppp) (neg_lim qv) (neg_lim qv)
  have qx := addK_spec qv.to (neg_lim x3.2)
  have sp := mul_lim s1 ppp
  have rq := mul_lim r.2 qx.2
  have y3 := addK_spec rq.to (neg_lim sp)
  rw [mulK_eq _ hx1 hz2, mulK_eq _ hy1 hw2, mulK_eq _ hz1 hz2, mulK_eq _ hw1 hw2, mulK_eq _ hz1 hx2, mulK_eq _ hw1 hy2,
    negK_eq _ u1, negK_eq _ s1, pv.1, r.1, mulK_eq _ pv.2 pv.2, mulK_eq _ r.2 r.2, mulK_eq _ pv.2 pp, mulK_eq _ u1 pp,
    negK_eq _ ppp, negK_eq _ qv, x3.1, negK_eq _ x3.2, qx.1] at h
  obtain ⟨hr, h⟩ := rupK_true r.2 qx.2 h
  rw [mulK_eq _ s1 ppp, mulK_eq _ r.2 qx.2, negK_eq _ sp, y3.1, mulK_eq _ zz pp, mulK_eq _ zzz ppp] at h
  exact ⟨hr, ⟨x3.2, y3.2, mul_lim zz pp, mul_lim zzz ppp⟩, h⟩

/-- `pdul_rns_xyzz`. -/
noncomputable def pdulXK (p : Pt) (k : Pt → Bool) : Bool :=
  addK p.2.1 p.2.1 fun u => mulK u u fun v => mulK p.1 p.1 fun xx => mulK u v fun w => mulK p.1 v fun s =>
  add3K xx xx xx fun m => mulK m m fun mm => mulK w p.2.1 fun wy => zipK negF SUBLIT s fun ns =>
  add3K mm ns ns fun x3 => zipK negF SUBLIT mm fun nmm => add4K s nmm s s fun sx => mulK m sx fun ms =>
  zipK negF SUBLIT wy fun nwy => addK ms nwy fun y3 => mulK v p.2.2.1 fun zz3 => mulK w p.2.2.2 fun zzz3 =>
  k (x3, y3, zz3, zzz3)

theorem pdulXK_true {p : Pt} {k : Pt → Bool} (hp : LimPt p) (h : pdulXK p k = true) :
    LimPt (pdulXyzz (exactMatrix P) p) ∧ k (pdulXyzz (exactMatrix P) p) = true := by
  obtain ⟨x1, y1, z1, w1⟩ := p
  obtain ⟨hx1, hy1, hz1, hw1⟩ := hp
  unfold pdulXK at h
  dsimp only at hx1 hy1 hz1 hw1 h
  have u := addK_spec hy1.to hy1.to
  have v := mul_lim u.2 u.2
  have xx := mul_lim hx1 hx1
  have w := mul_lim u.2 v
  have s := mul_lim hx1 v
  have m := add3K_spec xx.to xx.to xx.to
  have mm := mul_lim m.2 m.2
  have wy := mul_lim w hy1
  have x3 := add3K_spec mm.to (neg_lim s) (neg_lim s)
  have sx := add4K_spec s.to (neg_lim mm) s.to s.to
  have ms := mul_lim m.2 sx.2
  have y3 := addK_spec ms.to (neg_lim wy)
  rw [u.1, mulK_eq _ u.2 u.2, mulK_eq _ hx1 hx1, mulK_eq _ u.2 v, mulK_eq _ hx1 v, m.1, mulK_eq _ m.2 m.2,
    mulK_eq _ w hy1, negK_eq _ s, x3.1, negK_eq _ mm, sx.1, mulK_eq _ m.2 sx.2, negK_eq _ wy, y3.1, mulK_eq _ v hz1,
    mulK_eq _ w hw1] at h
  exact ⟨⟨x3.2, y3.2, mul_lim v hz1, mul_lim w hw1⟩, h⟩

/-- `n` steps of `window_merge` with one-bit windows that all have the sum `w`. -/
noncomputable def mergeXK (w : Pt) (n : Nat) : Pt → (Pt → Bool) → Bool :=
  Nat.rec (fun r k => k r) (fun _ ih r k => pdulXK r fun r => paddXK r w fun r => ih r k) n

/-- One step. -/
def mergeXStep (w r : Pt) : Pt := paddXyzz (exactMatrix P) (pdulXyzz (exactMatrix P) r) w

/-- The estimate in the addition of one step is rounded up. -/
def StepUp (w r : Pt) : Prop :=
  RoundsUp (exactMatrix P) (mulUnreduced (lastFactors (exactMatrix P) (pdulXyzz (exactMatrix P) r) w).1
    (lastFactors (exactMatrix P) (pdulXyzz (exactMatrix P) r) w).2)

theorem mergeXK_true {w : Pt} (hw : LimPt w) (n : Nat) : ∀ {r : Pt} {k : Pt → Bool}, LimPt r →
    mergeXK w n r k = true → (∀ j, j < n → StepUp w ((mergeXStep w)^[j] r)) ∧ LimPt ((mergeXStep w)^[n] r) ∧
      k ((mergeXStep w)^[n] r) = true := by
  induction n with
  | zero => exact fun {r k} hr h => ⟨fun j hj => absurd hj (Nat.not_lt_zero _), hr, h⟩
  | succ n ih =>
    intro r k hr h
    have h' : pdulXK r (fun r => paddXK r w fun r => mergeXK w n r k) = true := h
    obtain ⟨h2, h3⟩ := pdulXK_true hr h'
    obtain ⟨h4, h5, h6⟩ := paddXK_true h2 hw h3
    obtain ⟨h7, h8⟩ := ih (r := mergeXStep w r) h5 h6
    refine ⟨?_, by rw [Function.iterate_succ_apply]; exact h8⟩
    intro j hj
    cases j with
    | zero => exact h4
    | succ j =>
      rw [Function.iterate_succ_apply]
      exact h7 j (by omega)

theorem chunkX {w r q : Pt} {n : Nat} (hw : LimPt w) (hr : LimPt r) (h : mergeXK w n r (fun x => eqPt x q) = true) :
    (∀ j, j < n → StepUp w ((mergeXStep w)^[j] r)) ∧ (mergeXStep w)^[n] r = q ∧ LimPt q := by
  obtain ⟨h1, h2, h3⟩ := mergeXK_true hw n hr h
  have := eqPt_true h3
  rw [this] at h2
  exact ⟨h1, this, h2⟩

end Verif.EcRns
