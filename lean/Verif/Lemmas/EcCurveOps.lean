import Verif.Model.EcCurve
import Verif.Props.EcChunks
import Verif.Lemmas.EcPrime

/-!
# The chunk operations as operations on `ZMod P`, and the array formulas as the reference formulas
-/

namespace Verif.EcCurve

open Verif.EcChunks Verif.Props

/-- `l` holds the canonical representative of a field element in 24 chunks (Barrett arithmetic). -/
def BRep (l : List Nat) (x : ZMod P) : Prop := ∃ v, Rep (2 ^ 16) 24 l v ∧ v < P ∧ (v : ZMod P) = x

/-- `l` holds some representative, at most `p << 16`, of a field element in 25 chunks (lazy arithmetic). -/
def LRep (l : List Nat) (x : ZMod P) : Prop := ∃ v, Rep (2 ^ 16) 25 l v ∧ v ≤ 2 ^ 16 * P ∧ (v : ZMod P) = x

/-- Coordinate-wise. -/
def BRep4 (p : Quad (List Nat)) (q : Quad (ZMod P)) : Prop :=
  BRep p.1 q.1 ∧ BRep p.2.1 q.2.1 ∧ BRep p.2.2.1 q.2.2.1 ∧ BRep p.2.2.2 q.2.2.2

@[inherit_doc BRep4]
def LRep4 (p : Quad (List Nat)) (q : Quad (ZMod P)) : Prop :=
  LRep p.1 q.1 ∧ LRep p.2.1 q.2.1 ∧ LRep p.2.2.1 q.2.2.1 ∧ LRep p.2.2.2 q.2.2.2

theorem BRep.congr {l : List Nat} {x y : ZMod P} (h : BRep l x) (e : y = x) : BRep l y := e ▸ h
theorem LRep.congr {l : List Nat} {x y : ZMod P} (h : LRep l x) (e : y = x) : LRep l y := e ▸ h

theorem P_CHUNK_rep : Rep (2 ^ 16) 24 P_CHUNK P := constArray_rep 16 24 P (by norm_num) (by decide +kernel)
theorem P_S16_rep : Rep (2 ^ 16) 25 P_S16_CHUNK (2 ^ 16 * P) := by
  have := constArray_rep 16 25 (P <<< 16) (by norm_num) (by decide +kernel)
  rwa [Nat.shiftLeft_eq, mul_comm] at this
theorem TWIST_D_rep : Rep (2 ^ 16) 25 TWIST_D_CHUNK TWIST_D :=
  constArray_rep 16 25 TWIST_D (by norm_num) (by decide +kernel)

/-- Room left in 24 chunks: four times the modulus. -/
theorem room24 : 4 * P < 2 ^ (16 * 24) - 2 ^ (16 * (24 - 1)) := by decide +kernel
/-- Room left in 25 chunks. -/
theorem room25 : 4 * (2 ^ 16 * P) < 2 ^ (16 * 25) - 2 ^ (16 * (25 - 1)) := by decide +kernel
theorem room25_top : (2 * (2 ^ 16 * P)) / 2 ^ (16 * (25 - 1)) =
    2 ^ 16 * P / 2 ^ (16 * (25 - 1)) + 2 ^ 16 * P / 2 ^ (16 * (25 - 1)) := by decide +kernel
theorem P_pos : 0 < P := by decide +kernel

/-- `cond_sub_2u16` when only the top chunks of the subtrahend and of the raised minuend are known to be ordered. -/
theorem condSub_rep' (n : Nat) (hn : 2 ≤ n) (m a b : List Nat) (p x y : Nat) (hm : Rep (2 ^ 16) n m p)
    (ha : Rep (2 ^ 16) n a x) (hb : Rep (2 ^ 16) n b y) (hy : y ≤ x + p)
    (hy2 : x < y → y / 2 ^ (16 * (n - 1)) ≤ x / 2 ^ (16 * (n - 1)) + p / 2 ^ (16 * (n - 1)))
    (h1 : y ≤ x → x - y < 2 ^ (16 * n) - 2 ^ (16 * (n - 1)))
    (h2 : x < y → x + p - y < 2 ^ (16 * n) - 2 ^ (16 * (n - 1))) :
    Rep (2 ^ 16) n (condSub n m a b) (if y ≤ x then x - y else x + p - y) := by
  rw [pow_mul, pow_mul] at *
  unfold condSub
  have hc := compare_nonneg ha hb
  dsimp only
  by_cases h : y ≤ x
  · rw [if_pos (hc.2 h), if_pos h]
    exact sub2_rep n hn a b x y ha hb h (h1 h)
  · rw [if_neg (fun hh => h (hc.1 hh)), if_neg h,
      zipWith_add_mod (2 ^ 32) (2 ^ 16) (2 ^ 16) a m ha.lt hm.lt (by norm_num)]
    have hlen : (List.zipWith (· + ·) a m).length = n := by simp [ha.len, hm.len]
    refine sub2_value n hn _ b (x + p) y hlen
      (fun v hv => lt_of_lt_of_le (mem_zipWith_add a m _ _ v ha.lt hm.lt hv) (by norm_num)) ?_ hb ?_ (by omega)
      (h2 (by omega))
    · rw [ofDigits_zipWith_add _ _ _ (ha.len.trans hm.len.symm), ha.val, hm.val]
    · have e : (List.zipWith (· + ·) a m).getD (n - 1) 0 = a.getD (n - 1) 0 + m.getD (n - 1) 0 := by
        rw [List.getD_eq_getElem _ _ (by omega), List.getD_eq_getElem _ _ (by rw [ha.len]; omega),
          List.getD_eq_getElem _ _ (by rw [hm.len]; omega), List.getElem_zipWith]
      rw [e, getD_top (by norm_num) (by omega) hm, getD_top (by norm_num) (by omega) hb,
        getD_top (by norm_num) (by omega) ha]
      exact hy2 (by omega)

theorem cast_sub_mul (c x y : Nat) (h : y ≤ x + c * P) : ((x + c * P - y : Nat) : ZMod P) = x - y := by
  rw [Nat.cast_sub h]
  push_cast
  rw [ZMod.natCast_self]
  ring

theorem condSubMod_cast (c v : Nat) : ((if c * P ≤ v then v - c * P else v : Nat) : ZMod P) = v := by
  split
  · rename_i h
    rw [Nat.cast_sub h]
    push_cast
    rw [ZMod.natCast_self]
    ring
  · rfl

/-! ## The operations with `n` chunks and modulus `c * P` -/

/-- `l` holds in `n` chunks a representative of `x` that is at most `c * P`. -/
def VRep (n c : Nat) (l : List Nat) (x : ZMod P) : Prop := ∃ v, Rep (2 ^ 16) n l v ∧ v ≤ c * P ∧ (v : ZMod P) = x

section
variable {n c : Nat} (hn : 2 ≤ n) (hr : 4 * (c * P) < 2 ^ (16 * n) - 2 ^ (16 * (n - 1))) {m : List Nat}
  (hm : Rep (2 ^ 16) n m (c * P))
include hn hr hm

theorem VRep.sub {a b : List Nat} {x y : ZMod P} (ha : VRep n c a x) (hb : VRep n c b y) :
    VRep n c (condSub n m a b) (x - y) := by
  obtain ⟨v, hv, hvp, rfl⟩ := ha
  obtain ⟨w, hw, hwp, rfl⟩ := hb
  have h := condSub_rep' n hn _ a b _ v w hm hv hw (by omega)
    (fun _ => (Nat.div_le_div_right hwp).trans (Nat.le_add_left _ _)) (fun _ => by omega) (fun _ => by omega)
  refine ⟨_, h, by split <;> omega, ?_⟩
  split
  · rename_i h
    rw [Nat.cast_sub h]
  · rw [cast_sub_mul _ _ _ (by omega)]

theorem VRep.add {a b : List Nat} {x y : ZMod P} (ha : VRep n c a x) (hb : VRep n c b y) :
    VRep n c (condSubMod n m (add2 a b)) (x + y) := by
  obtain ⟨v, hv, hvp, rfl⟩ := ha
  obtain ⟨w, hw, hwp, rfl⟩ := hb
  have hpos := Nat.two_pow_pos (16 * (n - 1))
  have h1 := C51_add2 n v w hn a b hv hw (by omega)
  have h2 := C51_cond_sub_mod n _ _ hn _ _ hm h1 (by omega)
  refine ⟨_, h2, by split <;> omega, ?_⟩
  rw [condSubMod_cast, Nat.cast_add]

theorem VRep.add3 {a b d : List Nat} {x y z : ZMod P} (ha : VRep n c a x) (hb : VRep n c b y) (hd : VRep n c d z) :
    VRep n c (condSubMod n m (condSubMod n m (add3 a b d))) (x + y + z) := by
  obtain ⟨v, hv, hvp, rfl⟩ := ha
  obtain ⟨w, hw, hwp, rfl⟩ := hb
  obtain ⟨u, hu, hup, rfl⟩ := hd
  have hpos := Nat.two_pow_pos (16 * (n - 1))
  have h1 := C51_add3 n v w u hn a b d hv hw hu (by omega)
  have h2 := C51_cond_sub_mod n _ _ hn _ _ hm h1 (by omega)
  have h3 := C51_cond_sub_mod n _ _ hn _ _ hm h2 (by split <;> omega)
  refine ⟨_, h3, by (repeat' split) <;> omega, ?_⟩
  rw [condSubMod_cast, condSubMod_cast]
  push_cast
  rfl

theorem VRep.negAdd {a b : List Nat} {x y : ZMod P} (ht : (2 * (c * P)) / 2 ^ (16 * (n - 1)) =
    c * P / 2 ^ (16 * (n - 1)) + c * P / 2 ^ (16 * (n - 1))) (ha : VRep n c a x) (hb : VRep n c b y) :
    VRep n c (condSub n m m (add2 a b)) (0 - x - y) := by
  obtain ⟨v, hv, hvp, rfl⟩ := ha
  obtain ⟨w, hw, hwp, rfl⟩ := hb
  have hpos := Nat.two_pow_pos (16 * (n - 1))
  have h1 := C51_add2 n v w hn a b hv hw (by omega)
  have h := condSub_rep' n hn _ _ _ _ _ _ hm hm h1 (by omega)
    (fun _ => by rw [← ht]; exact Nat.div_le_div_right (by omega)) (fun _ => by omega) (fun _ => by omega)
  refine ⟨_, h, by split <;> omega, ?_⟩
  split
  · rename_i h
    rw [Nat.cast_sub h]
    push_cast
    rw [ZMod.natCast_self]
    ring
  · rw [cast_sub_mul _ _ _ (by omega)]
    push_cast
    rw [ZMod.natCast_self]
    ring

theorem VRep.neg {a : List Nat} {x : ZMod P} (ha : VRep n c a x) : VRep n c (sub2 n m a) (-x) := by
  obtain ⟨v, hv, hvp, rfl⟩ := ha
  have h := sub2_rep n hn _ a _ v hm hv hvp (by rw [← pow_mul, ← pow_mul]; omega)
  refine ⟨_, h, by omega, ?_⟩
  rw [Nat.cast_sub hvp]
  push_cast
  rw [ZMod.natCast_self]
  ring

end

/-! ## Barrett operations -/

theorem BRep.mul {a b : List Nat} {x y : ZMod P} (ha : BRep a x) (hb : BRep b y) :
    BRep (modMulBarrett a b) (x * y) := by
  obtain ⟨v, hv, hvp, rfl⟩ := ha
  obtain ⟨w, hw, hwp, rfl⟩ := hb
  refine ⟨_, C53_mod_mul_field v w a b hv hw hvp hwp, Nat.mod_lt _ P_pos, ?_⟩
  rw [ZMod.natCast_mod, Nat.cast_mul]

section
variable {n p : Nat} (hn : 2 ≤ n) (hr : 4 * p < 2 ^ (16 * n) - 2 ^ (16 * (n - 1))) {m : List Nat}
  (hm : Rep (2 ^ 16) n m p)
include hn hr hm

theorem strict_sub {a b : List Nat} {v w : Nat} (ha : Rep (2 ^ 16) n a v) (hb : Rep (2 ^ 16) n b w) (hv : v < p)
    (hw : w < p) : ∃ r, Rep (2 ^ 16) n (condSub n m a b) r ∧ r < p ∧ (r : Int) ≡ v - w [ZMOD p] :=
  C51_cond_sub n p v w hn m a b hm (by omega) ha hb hv hw

theorem strict_add {a b : List Nat} {v w : Nat} (ha : Rep (2 ^ 16) n a v) (hb : Rep (2 ^ 16) n b w) (hv : v < p)
    (hw : w < p) : ∃ r, Rep (2 ^ 16) n (condSubMod n m (add2 a b)) r ∧ r < p ∧
      r = if 1 * p ≤ v + w then v + w - 1 * p else v + w := by
  have hpos := Nat.two_pow_pos (16 * (n - 1))
  have h1 := C51_add2 n v w hn a b ha hb (by omega)
  have h2 := C51_cond_sub_mod n p _ hn _ _ hm h1 (by omega)
  rw [one_mul]
  exact ⟨_, h2, by split <;> omega, rfl⟩

theorem strict_add3 {a b d : List Nat} {v w u : Nat} (ha : Rep (2 ^ 16) n a v) (hb : Rep (2 ^ 16) n b w)
    (hd : Rep (2 ^ 16) n d u) (hv : v < p) (hw : w < p) (hu : u < p) :
    ∃ r t, Rep (2 ^ 16) n (condSubMod n m (condSubMod n m (add3 a b d))) r ∧ r < p ∧
      (r = if 1 * p ≤ t then t - 1 * p else t) ∧ t = if 1 * p ≤ v + w + u then v + w + u - 1 * p else v + w + u := by
  have hpos := Nat.two_pow_pos (16 * (n - 1))
  have h1 := C51_add3 n v w u hn a b d ha hb hd (by omega)
  have h2 := C51_cond_sub_mod n p _ hn _ _ hm h1 (by omega)
  have h3 := C51_cond_sub_mod n p _ hn _ _ hm h2 (by split <;> omega)
  rw [one_mul]
  exact ⟨_, _, h3, by (repeat' split) <;> omega, rfl, rfl⟩

end

theorem BRep.sub {a b : List Nat} {x y : ZMod P} (ha : BRep a x) (hb : BRep b y) :
    BRep (condSub 24 P_CHUNK a b) (x - y) := by
  obtain ⟨v, hv, hvp, rfl⟩ := ha
  obtain ⟨w, hw, hwp, rfl⟩ := hb
  obtain ⟨r, h1, h2, h3⟩ := strict_sub (by norm_num) room24 P_CHUNK_rep hv hw hvp hwp
  refine ⟨r, h1, h2, ?_⟩
  have := (ZMod.intCast_eq_intCast_iff _ _ _).2 h3
  push_cast at this
  exact this

theorem BRep.add {a b : List Nat} {x y : ZMod P} (ha : BRep a x) (hb : BRep b y) :
    BRep (condSubMod 24 P_CHUNK (add2 a b)) (x + y) := by
  obtain ⟨v, hv, hvp, rfl⟩ := ha
  obtain ⟨w, hw, hwp, rfl⟩ := hb
  obtain ⟨r, h1, h2, h3⟩ := strict_add (by norm_num) room24 P_CHUNK_rep hv hw hvp hwp
  exact ⟨r, h1, h2, by rw [h3, condSubMod_cast, Nat.cast_add]⟩

theorem BRep.add3 {a b c : List Nat} {x y z : ZMod P} (ha : BRep a x) (hb : BRep b y) (hc : BRep c z) :
    BRep (condSubMod 24 P_CHUNK (condSubMod 24 P_CHUNK (add3 a b c))) (x + y + z) := by
  obtain ⟨v, hv, hvp, rfl⟩ := ha
  obtain ⟨w, hw, hwp, rfl⟩ := hb
  obtain ⟨u, hu, hup, rfl⟩ := hc
  obtain ⟨r, t, h1, h2, h3, h4⟩ := strict_add3 (by norm_num) room24 P_CHUNK_rep hv hw hu hvp hwp hup
  exact ⟨r, h1, h2, by rw [h3, condSubMod_cast, h4, condSubMod_cast]; push_cast; rfl⟩

/-! ## Lazy operations -/

theorem LRep.mul {a b : List Nat} {x y : ZMod P} (ha : LRep a x) (hb : LRep b y) :
    LRep (modMulLazy a b) (x * y) := by
  obtain ⟨v, hv, hvp, rfl⟩ := ha
  obtain ⟨w, hw, hwp, rfl⟩ := hb
  obtain ⟨z, h1, h2, h3⟩ := C54_mod_mul_lazy v w a b hv hw
  rw [mul_comm P] at h3
  refine ⟨z, h1, le_of_lt h3, ?_⟩
  rw [(ZMod.natCast_eq_natCast_iff _ _ _).2 h2, Nat.cast_mul]

theorem LRep.sub {a b : List Nat} {x y : ZMod P} (ha : LRep a x) (hb : LRep b y) :
    LRep (condSub 25 P_S16_CHUNK a b) (x - y) := VRep.sub (by norm_num) room25 P_S16_rep ha hb

theorem LRep.add {a b : List Nat} {x y : ZMod P} (ha : LRep a x) (hb : LRep b y) :
    LRep (condSubMod 25 P_S16_CHUNK (add2 a b)) (x + y) := VRep.add (by norm_num) room25 P_S16_rep ha hb

theorem LRep.add3 {a b c : List Nat} {x y z : ZMod P} (ha : LRep a x) (hb : LRep b y) (hc : LRep c z) :
    LRep (condSubMod 25 P_S16_CHUNK (condSubMod 25 P_S16_CHUNK (add3 a b c))) (x + y + z) :=
  VRep.add3 (by norm_num) room25 P_S16_rep ha hb hc

/-- The step `h = p<<16 - (a + b)` of the lazy doubling, where `a + b` is not reduced: `cond_sub` handles sums up to
twice the shifted modulus because the second highest chunk of the modulus is small. -/
theorem LRep.negAdd {a b : List Nat} {x y : ZMod P} (ha : LRep a x) (hb : LRep b y) :
    LRep (condSub 25 P_S16_CHUNK P_S16_CHUNK (add2 a b)) (0 - x - y) :=
  VRep.negAdd (by norm_num) room25 P_S16_rep room25_top ha hb

theorem LRep.neg {a : List Nat} {x : ZMod P} (ha : LRep a x) : LRep (sub2 25 P_S16_CHUNK a) (-x) :=
  VRep.neg (by norm_num) room25 P_S16_rep ha

theorem twistD_LRep : LRep TWIST_D_CHUNK ((TWIST_D : Nat) : ZMod P) :=
  ⟨_, TWIST_D_rep, by decide +kernel, rfl⟩

/-! ## Formulas -/

theorem paddBarrettXyzz_rep {p q : Quad (List Nat)} {u v : Quad (ZMod P)} (hp : BRep4 p u) (hq : BRep4 q v) :
    BRep4 (paddBarrettXyzz p q) (xyzzAdd u v) := by
  obtain ⟨x1, y1, zz1, zzz1⟩ := p
  obtain ⟨x2, y2, zz2, zzz2⟩ := q
  obtain ⟨a1, b1, c1, d1⟩ := u
  obtain ⟨a2, b2, c2, d2⟩ := v
  obtain ⟨hx1, hy1, hz1, hw1⟩ := hp
  obtain ⟨hx2, hy2, hz2, hw2⟩ := hq
  dsimp only at *
  have u1 := hx1.mul hz2
  have u2 := hx2.mul hz1
  have s1 := hy1.mul hw2
  have s2 := hy2.mul hw1
  have pp := u2.sub u1
  have r := s2.sub s1
  have p2 := pp.mul pp
  have r2 := r.mul r
  have p3 := p2.mul pp
  have q := u1.mul p2
  have t := p3.add3 q q
  have x3 := r2.sub t
  have y3 := (r.mul (q.sub x3)).sub (s1.mul p3)
  have z3 := (hz1.mul hz2).mul p2
  have w3 := (hw1.mul hw2).mul p3
  refine ⟨?_, ?_, ?_, ?_⟩
  · exact (x3).congr (by simp only [xyzzAdd]; ring)
  · exact (y3).congr (by simp only [xyzzAdd]; ring)
  · exact z3
  · exact (w3).congr (by simp only [xyzzAdd]; ring)

theorem pdulBarrettXyzz_rep {p : Quad (List Nat)} {u : Quad (ZMod P)} (hp : BRep4 p u) :
    BRep4 (pdulBarrettXyzz p) (xyzzDouble 0 u) := by
  obtain ⟨x1, y1, zz1, zzz1⟩ := p
  obtain ⟨a1, b1, c1, d1⟩ := u
  obtain ⟨hx1, hy1, hz1, hw1⟩ := hp
  dsimp only at *
  have u := hy1.add hy1
  have xx := hx1.mul hx1
  have v := u.mul u
  have w := u.mul v
  have s := hx1.mul v
  have s2 := s.add s
  have m := xx.add3 xx xx
  have x3 := (m.mul m).sub s2
  have y3 := (m.mul (s.sub x3)).sub (w.mul hy1)
  refine ⟨?_, ?_, v.mul hz1, w.mul hw1⟩
  · exact (x3).congr (by simp only [xyzzDouble]; ring)
  · exact (y3).congr (by simp only [xyzzDouble]; ring)

theorem paddLazyXyzz_rep {p q : Quad (List Nat)} {u v : Quad (ZMod P)} (hp : LRep4 p u) (hq : LRep4 q v) :
    LRep4 (paddLazyXyzz p q) (xyzzAdd u v) := by
  obtain ⟨x1, y1, zz1, zzz1⟩ := p
  obtain ⟨x2, y2, zz2, zzz2⟩ := q
  obtain ⟨a1, b1, c1, d1⟩ := u
  obtain ⟨a2, b2, c2, d2⟩ := v
  obtain ⟨hx1, hy1, hz1, hw1⟩ := hp
  obtain ⟨hx2, hy2, hz2, hw2⟩ := hq
  dsimp only at *
  have u1 := hx1.mul hz2
  have u2 := hx2.mul hz1
  have s1 := hy1.mul hw2
  have s2 := hy2.mul hw1
  have pp := u2.sub u1
  have r := s2.sub s1
  have p2 := pp.mul pp
  have r2 := r.mul r
  have p3 := p2.mul pp
  have q := u1.mul p2
  have t := p3.add3 q q
  have x3 := r2.sub t
  have y3 := (r.mul (q.sub x3)).sub (s1.mul p3)
  have z3 := (hz1.mul hz2).mul p2
  have w3 := (hw1.mul hw2).mul p3
  refine ⟨?_, ?_, ?_, ?_⟩
  · exact (x3).congr (by simp only [xyzzAdd]; ring)
  · exact (y3).congr (by simp only [xyzzAdd]; ring)
  · exact z3
  · exact (w3).congr (by simp only [xyzzAdd]; ring)

theorem pdulLazyXyzz_rep {p : Quad (List Nat)} {u : Quad (ZMod P)} (hp : LRep4 p u) :
    LRep4 (pdulLazyXyzz p) (xyzzDouble 0 u) := by
  obtain ⟨x1, y1, zz1, zzz1⟩ := p
  obtain ⟨a1, b1, c1, d1⟩ := u
  obtain ⟨hx1, hy1, hz1, hw1⟩ := hp
  dsimp only at *
  have u := hy1.add hy1
  have xx := hx1.mul hx1
  have v := u.mul u
  have w := u.mul v
  have s := hx1.mul v
  have s2 := s.add s
  have m := xx.add3 xx xx
  have x3 := (m.mul m).sub s2
  have y3 := (m.mul (s.sub x3)).sub (w.mul hy1)
  refine ⟨?_, ?_, v.mul hz1, w.mul hw1⟩
  · exact (x3).congr (by simp only [xyzzDouble]; ring)
  · exact (y3).congr (by simp only [xyzzDouble]; ring)

theorem paddLazyTwisted_rep {p q : Quad (List Nat)} {u v : Quad (ZMod P)} (hp : LRep4 p u) (hq : LRep4 q v) :
    LRep4 (paddLazyTwisted p q) (edAdd ((TWIST_D : Nat) : ZMod P) u v) := by
  obtain ⟨x1, y1, z1, t1⟩ := p
  obtain ⟨x2, y2, z2, t2⟩ := q
  obtain ⟨a1, b1, c1, d1⟩ := u
  obtain ⟨a2, b2, c2, d2⟩ := v
  obtain ⟨hx1, hy1, hz1, hw1⟩ := hp
  obtain ⟨hx2, hy2, hz2, hw2⟩ := hq
  dsimp only at *
  have a := hx1.mul hx2
  have b := hy1.mul hy2
  have d := hz1.mul hz2
  have c := (hw1.mul hw2).mul twistD_LRep
  have h := a.add b
  have e := ((hx1.add hy1).mul (hx2.add hy2)).sub h
  have f := d.sub c
  have g := d.add c
  refine ⟨?_, ?_, ?_, ?_⟩
  · exact (e.mul f).congr (by simp only [edAdd]; ring)
  · exact (g.mul h).congr (by simp only [edAdd]; ring)
  · exact (f.mul g).congr (by simp only [edAdd]; ring)
  · exact (e.mul h).congr (by simp only [edAdd]; ring)

theorem pdulLazyTwisted_rep {p : Quad (List Nat)} {u : Quad (ZMod P)} (hp : LRep4 p u) :
    LRep4 (pdulLazyTwisted p) (edDouble u) := by
  obtain ⟨x1, y1, z1, t1⟩ := p
  obtain ⟨a1, b1, c1, d1⟩ := u
  obtain ⟨hx1, hy1, hz1, hw1⟩ := hp
  dsimp only at *
  have a := hx1.mul hx1
  have b := hy1.mul hy1
  have ct := hz1.mul hz1
  have ct2 := ct.add ct
  have h := a.negAdd b
  have et := hx1.add hy1
  have e := (et.mul et).add h
  have g := b.sub a
  have f := g.sub ct2
  refine ⟨?_, ?_, ?_, ?_⟩
  · exact (e.mul f).congr (by simp only [edDouble]; ring)
  · exact g.mul h
  · exact (f.mul g).congr (by simp only [edDouble]; ring)
  · exact e.mul h

theorem pnegLazyTwisted_rep {p : Quad (List Nat)} {u : Quad (ZMod P)} (hp : LRep4 p u) :
    LRep4 (pnegLazyTwisted p) (-u.1, u.2.1, u.2.2.1, -u.2.2.2) :=
  ⟨hp.1.neg, hp.2.1, hp.2.2.1, hp.2.2.2.neg⟩

end Verif.EcCurve
