import Verif.Lemmas.EcEdwards
import Verif.Lemmas.EcPrime

/-!
# The configured generator has odd order: a checked double-and-add computation
-/

namespace Verif.EcCurve

open Verif.EcChunks

/-- One double-and-add step on XYZZ coordinates with natural numbers modulo `p`; `none` when a case distinction of the
group law would be needed. -/
def genStep (p gx gy : Nat) (r : Quad Nat) (bit : Bool) : Option (Quad Nat) :=
  let (x1, y1, zz1, zzz1) := r
  if y1 % p = 0 then none
  else
    let u := 2 * y1
    let v := u * u % p
    let w := u * v % p
    let s := x1 * v % p
    let m := 3 * x1 * x1 % p
    let x3 := (m * m + 2 * (p - s)) % p
    let y3 := (m * (s + (p - x3)) + (p - w) * y1) % p
    let zz3 := v * zz1 % p
    let zzz3 := w * zzz1 % p
    if bit then
      -- mixed addition of the generator
      let u2 := gx * zz3 % p
      let s2 := gy * zzz3 % p
      let P' := (u2 + (p - x3)) % p
      if P' = 0 then none
      else
        let R := (s2 + (p - y3)) % p
        let PP := P' * P' % p
        let PPP := P' * PP % p
        let Q := x3 * PP % p
        let x4 := (R * R + (p - PPP) + 2 * (p - Q)) % p
        let y4 := (R * (Q + (p - x4)) + (p - y3) * PPP) % p
        some (x4, y4, zz3 * PP % p, zzz3 * PPP % p)
    else some (x3, y3, zz3, zzz3)

def genRun (p gx gy : Nat) : List Bool → Quad Nat → Option (Quad Nat)
  | [], r => some r
  | b :: bs, r => match genStep p gx gy r b with
    | none => none
    | some r' => genRun p gx gy bs r'

def bitsVal (bs : List Bool) (k : Nat) : Nat := bs.foldl (fun k b => 2 * k + b.toNat) k

/-- Coordinates as field elements. -/
def castQ (r : Quad Nat) : Quad (ZMod P) := (r.1, r.2.1, r.2.2.1, r.2.2.2)

theorem cast_mod (x : Nat) : ((x % P : Nat) : ZMod P) = x := ZMod.natCast_mod x P

theorem cast_psub (x : Nat) : ((P - x % P : Nat) : ZMod P) = -(x : ZMod P) := by
  have hx : x % P ≤ P := (Nat.mod_lt _ P_prime.pos).le
  have := congrArg (Nat.cast : Nat → ZMod P) (Nat.sub_add_cancel hx)
  rw [Nat.cast_add, cast_mod, ZMod.natCast_self] at this
  linear_combination this

theorem cast_ne {x : Nat} (h : x % P ≠ 0) : (x : ZMod P) ≠ 0 := by
  intro hx
  exact h (Nat.mod_eq_zero_of_dvd ((ZMod.natCast_eq_zero_iff _ _).1 hx))

theorem two_ne' : (2 : ZMod P) ≠ 0 := by decide +kernel

theorem genStep_spec {gx gy : Nat} {G A : (shortW (0 : ZMod P) 1).Point} (hG : IsXY G (gx : ZMod P) (gy : ZMod P))
    {r r' : Quad Nat} {b : Bool} (hr : XRep (some (castQ r)) A) (h : genStep P gx gy r b = some r') :
    XRep (some (castQ r')) (A + A + b.toNat • G) := by
  obtain ⟨x1, y1, zz1, zzz1⟩ := r
  simp only [genStep] at h
  split_ifs at h with hy hb hP
  · -- double and add
    injection h with h
    subst h hb
    have hd := xyzzDouble_rep _ A hr two_ne' (cast_ne hy)
    have hg : XRep (some ((gx : ZMod P), (gy : ZMod P), 1, 1)) G :=
      ⟨one_ne_zero, one_ne_zero, by ring, by simpa using hG⟩
    have hP' := cast_ne (x := _ % P) (by rw [Nat.mod_mod]; exact hP)
    simp only [Nat.cast_add, Nat.cast_mul, cast_mod, cast_psub, Nat.cast_ofNat] at hP'
    have hx : (xyzzDouble 0 (castQ (x1, y1, zz1, zzz1))).1 / (xyzzDouble 0 (castQ (x1, y1, zz1, zzz1))).2.2.1 ≠
        (gx : ZMod P) / 1 := by
      intro e
      have hz3 : (xyzzDouble 0 (castQ (x1, y1, zz1, zzz1))).2.2.1 ≠ 0 := hd.1
      rw [div_one, div_eq_iff hz3] at e
      apply hP'
      simp only [xyzzDouble, castQ] at e
      linear_combination -e
    have ha := xyzzAdd_rep _ _ _ _ hd hg hx
    convert ha using 2
    · simp only [castQ, xyzzDouble, xyzzAdd, Nat.cast_add, Nat.cast_mul, cast_mod, cast_psub, Nat.cast_ofNat]
      refine Prod.ext ?_ (Prod.ext ?_ (Prod.ext ?_ ?_)) <;> dsimp only <;> ring
    · simp
  · injection h with h
    subst h
    have hd := xyzzDouble_rep _ A hr two_ne' (cast_ne hy)
    have e0 : b.toNat • G = 0 := by simp [hb]
    rw [e0, add_zero]
    convert hd using 2
    simp only [castQ, xyzzDouble, Nat.cast_add, Nat.cast_mul, cast_mod, cast_psub, Nat.cast_ofNat]
    refine Prod.ext ?_ (Prod.ext ?_ (Prod.ext ?_ ?_)) <;> dsimp only <;> ring

theorem genRun_spec {gx gy : Nat} {G : (shortW (0 : ZMod P) 1).Point} (hG : IsXY G (gx : ZMod P) (gy : ZMod P))
    (bs : List Bool) : ∀ (k : Nat) (r r' : Quad Nat), XRep (some (castQ r)) (k • G) → genRun P gx gy bs r = some r' →
      XRep (some (castQ r')) (bitsVal bs k • G) := by
  induction bs with
  | nil =>
    intro k r r' hr h
    injection h with h
    subst h
    exact hr
  | cons b bs ih =>
    intro k r r' hr h
    rw [genRun] at h
    split at h
    · simp at h
    · rename_i r1 h1
      have := genStep_spec hG hr h1
      rw [← add_nsmul, ← add_nsmul, ← two_mul] at this
      exact ih _ _ _ this h

/-- The lowest `k` bits, most significant first. -/
def natBits : Nat → Nat → List Bool
  | 0, _ => []
  | k + 1, n => natBits k (n / 2) ++ [n % 2 == 1]

def genBits : List Bool := (natBits 253 (ORDER - 1)).drop 1

set_option maxRecDepth 100000 in
theorem genBits_val : bitsVal genBits 1 = ORDER - 1 := by decide +kernel

set_option maxRecDepth 100000 in
theorem genRun_val : ((genRun P GEN_X GEN_Y genBits (GEN_X, GEN_Y, 1, 1)).map fun r =>
    ((r.1 + (P - GEN_X * r.2.2.1 % P)) % P, (r.2.1 + GEN_Y * r.2.2.2) % P)) = some (0, 0) := by decide +kernel

theorem ORDER_pred : ORDER = (ORDER - 1) + 1 := by decide +kernel
theorem ORDER_odd : Odd ORDER := ⟨ORDER / 2, by decide +kernel⟩

attribute [local irreducible] P GEN_X GEN_Y ORDER genBits

/-- The configured generator is killed by the configured order. -/
theorem order_generator {G : (shortW (0 : ZMod P) 1).Point} (hG : IsXY G (GEN_X : ZMod P) (GEN_Y : ZMod P)) :
    ORDER • G = 0 := by
  have h := genRun_val
  obtain ⟨r, hr, e⟩ := Option.map_eq_some_iff.1 h
  have h1 := genRun_spec hG genBits 1 (GEN_X, GEN_Y, 1, 1) r
    ⟨by simp, by simp, by simp, by simpa using hG⟩ hr
  rw [genBits_val] at h1
  have e1 := congrArg Prod.fst e
  have e2 := congrArg Prod.snd e
  dsimp only at e1 e2
  obtain ⟨hz, hw, _, hxy⟩ := h1
  have f1 : ((r.1 : Nat) : ZMod P) = GEN_X * r.2.2.1 := by
    have := congrArg (Nat.cast : Nat → ZMod P) e1
    rw [cast_mod, Nat.cast_add, cast_psub, Nat.cast_mul, Nat.cast_zero] at this
    linear_combination this
  have f2 : ((r.2.1 : Nat) : ZMod P) = -GEN_Y * r.2.2.2 := by
    have := congrArg (Nat.cast : Nat → ZMod P) e2
    rw [cast_mod, Nat.cast_add, Nat.cast_mul, Nat.cast_zero] at this
    linear_combination this
  rw [f1, f2, mul_div_cancel_right₀ _ hz, mul_div_cancel_right₀ _ hw] at hxy
  have h2 : (ORDER - 1) • G + G = 0 := by
    rw [add_comm]
    exact hG.add_neg hxy
  rw [ORDER_pred, add_nsmul, one_nsmul]
  exact h2

end Verif.EcCurve
