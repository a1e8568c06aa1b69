import Verif.Model.EcCurve
import Verif.Lemmas.EcRnsExact
import Verif.Lemmas.EcPrime

/-!
# The point formulas on residue vectors as the reference formulas over `ZMod P`
-/

namespace Verif.EcRns

open Verif.EcChunks Verif.EcCurve

/-- `l` is a residue vector of some integer in `[0, N p]` in the class of `x`. -/
def RRep (N : Nat) (l : List Nat) (x : ZMod P) : Prop :=
  ∃ v : Int, IsRns l v ∧ 0 ≤ v ∧ v ≤ N * P ∧ ((v : Int) : ZMod P) = x

/-- The same for the 17-bit limbs that are accepted by `add_sub_rns_var`. -/
def TRep (N : Nat) (l : List Nat) (x : ZMod P) : Prop :=
  ∃ v : Int, Term 131072 l v ∧ 0 ≤ v ∧ v ≤ N * P ∧ ((v : Int) : ZMod P) = x

/-- Coordinate-wise. -/
def RRep4 (N : Nat) (p : Pt) (q : Quad (ZMod P)) : Prop :=
  RRep N p.1 q.1 ∧ RRep N p.2.1 q.2.1 ∧ RRep N p.2.2.1 q.2.2.1 ∧ RRep N p.2.2.2 q.2.2.2

theorem BIGM_51000 : 51000 * P < BIGM := by decide +kernel

attribute [local irreducible] BIGM MODULI RNS_T FACTORS TOTAL P MODULI_SUB TWIST_D TWIST_D_RNS

theorem RRep.congr {N : Nat} {l : List Nat} {x y : ZMod P} (h : RRep N l x) (e : y = x) : RRep N l y := e ▸ h

theorem RRep.mono {N M : Nat} {l : List Nat} {x : ZMod P} (h : RRep N l x) (e : N ≤ M) : RRep M l x := by
  obtain ⟨v, h1, h2, h3, h4⟩ := h
  refine ⟨v, h1, h2, h3.trans ?_, h4⟩
  exact mul_le_mul_of_nonneg_right (by exact_mod_cast e) (by positivity)

theorem RRep.term {N : Nat} {l : List Nat} {x : ZMod P} (h : RRep N l x) : TRep N l x := by
  obtain ⟨v, h1, h2, h3, h4⟩ := h
  exact ⟨v, h1.term (by norm_num), h2, h3, h4⟩

theorem RRep.mul {mat : List (List Nat) × List Nat} (hg : Good P mat) {A B : Nat} {a b : List Nat} {x y : ZMod P}
    (ha : RRep A a x) (hb : RRep B b y) (hAB : A * B ≤ 219000000000) : RRep 51000 (modMul mat a b) (x * y) := by
  obtain ⟨v, h1, h2, h3, h4⟩ := ha
  obtain ⟨w, k1, k2, k3, k4⟩ := hb
  obtain ⟨c, c1, c2, c3, c4⟩ := modMul_P hg h1 k1 A B h2 h3 k2 k3 hAB
  refine ⟨c, c1, c2, by push_cast; exact c3.le, ?_⟩
  rw [← h4, ← k4, ← Int.cast_mul]
  exact (ZMod.intCast_eq_intCast_iff _ _ _).2 c4

theorem TRep.add1 {A B : Nat} {a b : List Nat} {x y : ZMod P} (ha : TRep A a x) (hb : TRep B b y) :
    RRep (A + B) (addSubVals a [b]) (x + y) := by
  obtain ⟨v, h1, h2, h3, h4⟩ := ha
  obtain ⟨w, k1, k2, k3, k4⟩ := hb
  have := addSubVals_spec 131072 a [b] v [w] h1 (.cons k1 .nil) (by norm_num)
  refine ⟨_, this, ?_, ?_, ?_⟩
  · simp only [List.sum_cons, List.sum_nil, add_zero]; omega
  · simp only [List.sum_cons, List.sum_nil, add_zero]; push_cast; rw [add_mul]; omega
  · simp only [List.sum_cons, List.sum_nil, add_zero]; push_cast; rw [h4, k4]

theorem TRep.add2 {A B C : Nat} {a b c : List Nat} {x y z : ZMod P} (ha : TRep A a x) (hb : TRep B b y)
    (hc : TRep C c z) : RRep (A + B + C) (addSubVals a [b, c]) (x + y + z) := by
  obtain ⟨v, h1, h2, h3, h4⟩ := ha
  obtain ⟨w, k1, k2, k3, k4⟩ := hb
  obtain ⟨u, l1, l2, l3, l4⟩ := hc
  have := addSubVals_spec 131072 a [b, c] v [w, u] h1 (.cons k1 (.cons l1 .nil)) (by norm_num)
  refine ⟨_, this, ?_, ?_, ?_⟩
  · simp only [List.sum_cons, List.sum_nil, add_zero]; omega
  · simp only [List.sum_cons, List.sum_nil, add_zero]; push_cast; rw [add_mul, add_mul]; omega
  · simp only [List.sum_cons, List.sum_nil, add_zero]; push_cast; rw [h4, k4, l4]; ring

theorem TRep.add3 {A B C D : Nat} {a b c d : List Nat} {x y z w : ZMod P} (ha : TRep A a x) (hb : TRep B b y)
    (hc : TRep C c z) (hd : TRep D d w) : RRep (A + B + C + D) (addSubVals a [b, c, d]) (x + y + z + w) := by
  obtain ⟨v, h1, h2, h3, h4⟩ := ha
  obtain ⟨v', k1, k2, k3, k4⟩ := hb
  obtain ⟨u, l1, l2, l3, l4⟩ := hc
  obtain ⟨u', m1, m2, m3, m4⟩ := hd
  have := addSubVals_spec 131072 a [b, c, d] v [v', u, u'] h1 (.cons k1 (.cons l1 (.cons m1 .nil))) (by norm_num)
  refine ⟨_, this, ?_, ?_, ?_⟩
  · simp only [List.sum_cons, List.sum_nil, add_zero]; omega
  · simp only [List.sum_cons, List.sum_nil, add_zero]; push_cast; rw [add_mul, add_mul, add_mul]; omega
  · simp only [List.sum_cons, List.sum_nil, add_zero]; push_cast; rw [h4, k4, l4, m4]; ring

theorem cast_neg_value (v : Int) : ((102400 * P - v : Int) : ZMod P) = -(v : ZMod P) := by
  push_cast
  rw [ZMod.natCast_self]
  ring

/-- `negate_rns_for_var_add` of a vector without zero limbs (but possibly the first). -/
theorem RRep.neg {N : Nat} {a : List Nat} {x : ZMod P} (ha : RRep N a x) (hn : NZ a) (hN : N ≤ 102400) :
    TRep 102400 (negate a) (-x) := by
  obtain ⟨v, h1, h2, h3, h4⟩ := ha
  refine ⟨_, negate_spec h1 hn, ?_, ?_, ?_⟩
  · have : (N : Int) * P ≤ 102400 * P := mul_le_mul_of_nonneg_right (by exact_mod_cast hN) (by positivity)
    omega
  · push_cast; omega
  · rw [cast_neg_value, h4]

/-- What the zero-check variant needs: the whole vector is zero, or its limb for the modulus `2^16` is not. -/
def ZOk (l : List Nat) : Prop := l = List.replicate 50 0 ∨ l.getD 0 0 ≠ 0

/-- `negate_rns_for_var_add_zero_check` of a product. -/
theorem RRep.negZ_mul {mat : List (List Nat) × List Nat} (hg : Good P mat) {A B : Nat} {a b : List Nat} {x y : ZMod P}
    (ha : RRep A a x) (hb : RRep B b y) (hAB : A * B ≤ 219000000000) (hz : ZOk (modMul mat a b)) :
    TRep 102400 (negateZ (modMul mat a b)) (-(x * y)) := by
  obtain ⟨v, h1, h2, h3, h4⟩ := ha
  obtain ⟨w, k1, k2, k3, k4⟩ := hb
  obtain ⟨c, c1, c2, c3, c4⟩ := modMul_P hg h1 k1 A B h2 h3 k2 k3 hAB
  obtain ⟨p1, p2⟩ := prod_bound A B h2 h3 k2 k3 hAB
  have hc4 : ((c : Int) : ZMod P) = x * y := by
    rw [← h4, ← k4, ← Int.cast_mul]
    exact (ZMod.intCast_eq_intCast_iff _ _ _).2 c4
  rcases modMul_zero_or hg h1 k1 p1 (by omega) with ⟨e1, e2⟩ | e
  · rw [e2, negateZ_zero]
    have h0 : x * y = 0 := by
      rw [← h4, ← k4, ← Int.cast_mul, e1, Int.cast_zero]
    refine ⟨0, ?_, le_rfl, by positivity, by rw [h0, neg_zero, Int.cast_zero]⟩
    have := isRns_const 0 (by norm_num)
    exact (IsRns.term this (by norm_num))
  · have hne : (modMul mat a b).getD 0 0 ≠ 0 := by
      rcases hz with hz | hz
      · exfalso
        have := e 1 (by norm_num) (by norm_num)
        rw [hz] at this
        simp at this
      · exact hz
    refine ⟨_, negateZ_spec c1 ?_, ?_, ?_, ?_⟩
    · intro i hi
      by_cases h : i = 0
      · subst h
        exact Nat.pos_of_ne_zero hne
      · exact e i (by omega) hi
    · omega
    · push_cast; omega
    · rw [cast_neg_value, hc4]

/-- A product of vectors of nonzero integers has no zero limb but possibly the first. -/
theorem mul_NZ {mat : List (List Nat) × List Nat} (hg : Good P mat) {A B : Nat} {a b : List Nat} {x y : ZMod P}
    (ha : RRep A a x) (hb : RRep B b y) (hAB : A * B ≤ 219000000000) (ha0 : ¬ IsRns a 0) (hb0 : ¬ IsRns b 0) :
    NZ (modMul mat a b) := by
  obtain ⟨v, h1, h2, h3, h4⟩ := ha
  obtain ⟨w, k1, k2, k3, k4⟩ := hb
  obtain ⟨p1, p2⟩ := prod_bound A B h2 h3 k2 k3 hAB
  rcases modMul_zero_or hg h1 k1 p1 (by omega) with ⟨e1, -⟩ | e
  · exfalso
    rcases mul_eq_zero.1 e1 with h | h
    · exact ha0 (h ▸ h1)
    · exact hb0 (h ▸ k1)
  · exact e

theorem twistD_RRep : RRep 1 TWIST_D_RNS ((TWIST_D : Nat) : ZMod P) :=
  ⟨TWIST_D, isRns_twistD, by positivity, by have := TWIST_D_lt; push_cast; omega, by push_cast; rfl⟩

/-- `padd_rns_twisted_pack`. -/
theorem paddTwisted_rep {mat : List (List Nat) × List Nat} (hg : Good P mat) {p q : Pt} {u v : Quad (ZMod P)}
    (hp : RRep4 51000 p u) (hq : RRep4 51000 q v) (ha : ZOk (modMul mat p.1 q.1)) (hb : ZOk (modMul mat p.2.1 q.2.1))
    (hc : ZOk (modMul mat (modMul mat p.2.2.2 q.2.2.2) TWIST_D_RNS)) :
    RRep4 51000 (paddTwisted mat p q) (edAdd ((TWIST_D : Nat) : ZMod P) u v) := by
  obtain ⟨x1, y1, z1, t1⟩ := p
  obtain ⟨x2, y2, z2, t2⟩ := q
  obtain ⟨X1, Y1, Z1, T1⟩ := u
  obtain ⟨X2, Y2, Z2, T2⟩ := v
  obtain ⟨hx1, hy1, hz1, ht1⟩ := hp
  obtain ⟨hx2, hy2, hz2, ht2⟩ := hq
  dsimp only at *
  have a1 := hx1.mul hg hx2 (by norm_num)
  have b1 := hy1.mul hg hy2 (by norm_num)
  have d1 := hz1.mul hg hz2 (by norm_num)
  have c0 := ht1.mul hg ht2 (by norm_num)
  have c1 := c0.mul hg twistD_RRep (by norm_num)
  have na := hx1.negZ_mul hg hx2 (by norm_num) ha
  have nb := hy1.negZ_mul hg hy2 (by norm_num) hb
  have nc := c0.negZ_mul hg twistD_RRep (by norm_num) hc
  have e1 := hx1.term.add1 hy1.term
  have e2 := hx2.term.add1 hy2.term
  have e3 := e1.mul hg e2 (by norm_num)
  have e := e3.term.add2 na nb
  have f := d1.term.add1 nc
  have g := d1.term.add1 c1.term
  have h := a1.term.add1 b1.term
  refine ⟨?_, ?_, ?_, ?_⟩
  · exact (e.mul hg f (by norm_num)).congr (by simp only [edAdd]; ring)
  · exact (g.mul hg h (by norm_num)).congr (by simp only [edAdd]; ring)
  · exact (f.mul hg g (by norm_num)).congr (by simp only [edAdd]; ring)
  · exact (e.mul hg h (by norm_num)).congr (by simp only [edAdd]; ring)

/-- `pdul_rns_twisted`. -/
theorem pdulTwisted_rep {mat : List (List Nat) × List Nat} (hg : Good P mat) {p : Pt} {u : Quad (ZMod P)}
    (hp : RRep4 51000 p u) (hx0 : ¬ IsRns p.1 0) (hy0 : ¬ IsRns p.2.1 0) (hz0 : ¬ IsRns p.2.2.1 0) :
    RRep4 51000 (pdulTwisted mat p) (edDouble u) := by
  obtain ⟨x1, y1, z1, t1⟩ := p
  obtain ⟨X1, Y1, Z1, T1⟩ := u
  obtain ⟨hx1, hy1, hz1, ht1⟩ := hp
  dsimp only at *
  have a1 := hx1.mul hg hx1 (by norm_num)
  have b1 := hy1.mul hg hy1 (by norm_num)
  have c1 := hz1.mul hg hz1 (by norm_num)
  have na := a1.neg (mul_NZ hg hx1 hx1 (by norm_num) hx0 hx0) (by norm_num)
  have nb := b1.neg (mul_NZ hg hy1 hy1 (by norm_num) hy0 hy0) (by norm_num)
  have nc := c1.neg (mul_NZ hg hz1 hz1 (by norm_num) hz0 hz0) (by norm_num)
  have et := hx1.term.add1 hy1.term
  have et2 := et.mul hg et (by norm_num)
  have e := et2.term.add2 na nb
  have g := b1.term.add1 na
  have f := g.term.add2 nc nc
  have h := na.add1 nb
  refine ⟨?_, ?_, ?_, ?_⟩
  · exact (e.mul hg f (by norm_num)).congr (by simp only [edDouble]; ring)
  · exact (g.mul hg h (by norm_num)).congr (by simp only [edDouble]; ring)
  · exact (f.mul hg g (by norm_num)).congr (by simp only [edDouble]; ring)
  · exact (e.mul hg h (by norm_num)).congr (by simp only [edDouble]; ring)

/-- Nonzero classes. -/
theorem mul_NZ_of_ne {mat : List (List Nat) × List Nat} (hg : Good P mat) {A B : Nat} {a b : List Nat} {x y : ZMod P}
    (ha : RRep A a x) (hb : RRep B b y) (hAB : A * B ≤ 219000000000) (hx : x ≠ 0) (hy : y ≠ 0) :
    NZ (modMul mat a b) := by
  obtain ⟨v, h1, h2, h3, h4⟩ := ha
  obtain ⟨w, k1, k2, k3, k4⟩ := hb
  obtain ⟨p1, p2⟩ := prod_bound A B h2 h3 k2 k3 hAB
  rcases modMul_zero_or hg h1 k1 p1 (by omega) with ⟨e1, -⟩ | e
  · exfalso
    rcases mul_eq_zero.1 e1 with h | h
    · exact hx (by rw [← h4, h, Int.cast_zero])
    · exact hy (by rw [← k4, h, Int.cast_zero])
  · exact e

/-- `pdul_rns_xyzz`: the bounds cover results of additions and doublings. -/
theorem pdulXyzz_rep {mat : List (List Nat) × List Nat} (hg : Good P mat) {p : Pt} {u : Quad (ZMod P)}
    (hx : RRep 358200 p.1 u.1) (hy : RRep 153400 p.2.1 u.2.1) (hz : RRep 51000 p.2.2.1 u.2.2.1)
    (hw : RRep 51000 p.2.2.2 u.2.2.2) (hx0 : u.1 ≠ 0) (hy0 : u.2.1 ≠ 0) (h2 : (2 : ZMod P) ≠ 0) (h3 : (3 : ZMod P) ≠ 0) :
    RRep 255800 (pdulXyzz mat p).1 (xyzzDouble 0 u).1 ∧ RRep 153400 (pdulXyzz mat p).2.1 (xyzzDouble 0 u).2.1 ∧
      RRep 51000 (pdulXyzz mat p).2.2.1 (xyzzDouble 0 u).2.2.1 ∧
      RRep 51000 (pdulXyzz mat p).2.2.2 (xyzzDouble 0 u).2.2.2 := by
  obtain ⟨x1, y1, z1, w1⟩ := p
  obtain ⟨X1, Y1, Z1, W1⟩ := u
  dsimp only at *
  have : Fact (Nat.Prime P) := inferInstance
  have hu := hy.term.add1 hy.term
  have hu0 : Y1 + Y1 ≠ 0 := by rw [← two_mul]; exact mul_ne_zero h2 hy0
  have hv := hu.mul hg hu (by norm_num)
  have hv0 := mul_ne_zero hu0 hu0
  have hxx := hx.mul hg hx (by norm_num)
  have hwv := hu.mul hg hv (by norm_num)
  have hs := hx.mul hg hv (by norm_num)
  have hm := hxx.term.add2 hxx.term hxx.term
  have hm0 : X1 * X1 + X1 * X1 + X1 * X1 ≠ 0 := by
    have : X1 * X1 + X1 * X1 + X1 * X1 = 3 * (X1 * X1) := by ring
    rw [this]
    exact mul_ne_zero h3 (mul_ne_zero hx0 hx0)
  have hmm := hm.mul hg hm (by norm_num)
  have hwy := hwv.mul hg hy (by norm_num)
  have ns := hs.neg (mul_NZ_of_ne hg hx hv (by norm_num) hx0 hv0) (by norm_num)
  have nm := hmm.neg (mul_NZ_of_ne hg hm hm (by norm_num) hm0 hm0) (by norm_num)
  have nw := hwy.neg (mul_NZ_of_ne hg hwv hy (by norm_num) (mul_ne_zero hu0 hv0) hy0) (by norm_num)
  have h1 := hmm.term.add2 ns ns
  have h4 := hs.term.add3 nm hs.term hs.term
  have h5 := hm.mul hg h4 (by norm_num)
  refine ⟨?_, ?_, ?_, ?_⟩
  · exact (h1.congr (by simp only [xyzzDouble]; ring))
  · exact ((h5.term.add1 nw).congr (by simp only [xyzzDouble]; ring))
  · exact (hv.mul hg hz (by norm_num)).congr (by simp only [xyzzDouble])
  · exact (hwv.mul hg hw (by norm_num)).congr (by simp only [xyzzDouble])

/-- A residue vector of known size represents one class only. -/
theorem RRep.unique {l : List Nat} {x y : ZMod P} (hx : RRep 51000 l x) (hy : RRep 51000 l y) : x = y := by
  obtain ⟨v, h1, h2, h3, h4⟩ := hx
  obtain ⟨w, k1, k2, k3, k4⟩ := hy
  have hb : (51000 : Int) * P < BIGM := by
    have h := Int.ofNat_lt.2 BIGM_51000
    rwa [Int.natCast_mul] at h
  rw [← h4, ← k4, h1.unique k1 ⟨h2, by push_cast at h3; omega⟩ ⟨k2, by push_cast at k3; omega⟩]

/-- Executable form of `RRep 51000` for a given integer. -/
def rnsCheck (l : List Nat) (v : Nat) : Bool :=
  l.length == 50 && l.all (· < 65536) && (List.range 50).all (fun i => l.getD i 0 % MODULI.getD i 0 == v % MODULI.getD i 0)
    && Nat.ble v (51000 * P)

theorem rnsCheck_rep {l : List Nat} {v : Nat} (h : rnsCheck l v = true) : RRep 51000 l (v : ZMod P) := by
  simp only [rnsCheck, Bool.and_eq_true, beq_iff_eq, List.all_eq_true, decide_eq_true_eq, List.mem_range, Nat.ble_eq] at h
  obtain ⟨⟨⟨h1, h2⟩, h3⟩, h4⟩ := h
  refine ⟨v, ⟨h1, h2, ?_⟩, by positivity, by exact_mod_cast h4, by push_cast; rfl⟩
  intro i hi
  apply Int.natCast_modEq_iff.2
  exact h3 i hi

end Verif.EcRns
