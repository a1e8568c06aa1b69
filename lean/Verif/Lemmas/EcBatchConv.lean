import Verif.Lemmas.EcBatch
import Verif.Lemmas.EcRns
import Verif.Props.Crt

/-!
# The conversions of batches
-/

namespace Verif.EcBatch
open Verif.EcChunks Verif.EcCurve Verif.EcRns

theorem zip_family {α β : Type} (ps : List α) (qs : List β) (h : ps.length = qs.length) :
    ∃ l : List (α × β), ps = l.map (fun t => t.1) ∧ qs = l.map (fun t => t.2) :=
  ⟨ps.zip qs, (zip_maps ps qs h).1.symm, (zip_maps ps qs h).2.symm⟩

theorem mapM_map_ok {α β γ : Type} (f : β → Except String γ) (k : α → β) (g : α → γ) (l : List α)
    (h : ∀ a ∈ l, f (k a) = .ok (g a)) : (l.map k).mapM f = .ok (l.map g) := by
  induction l with
  | nil => rfl
  | cons a l ih =>
    rw [List.map_cons, List.mapM_cons, h a List.mem_cons_self, ih (fun b hb => h b (List.mem_cons_of_mem _ hb))]
    rfl

theorem mapM_all_ok {α γ : Type} (f : α → Except String γ) (g : α → γ) (l : List α)
    (h : ∀ a ∈ l, f a = .ok (g a)) : l.mapM f = .ok (l.map g) := by
  have := mapM_map_ok f id g l h
  rwa [List.map_id] at this

/-- One failing element makes the whole traversal fail, with the only error there is. -/
theorem mapM_fails {α γ : Type} (f : α → Except String γ) (e : String) (l : List α)
    (hf : ∀ a ∈ l, (∃ c, f a = .ok c) ∨ f a = .error e) (h : ∃ a ∈ l, f a = .error e) : l.mapM f = .error e := by
  induction l with
  | nil => simp at h
  | cons a l ih =>
    rw [List.mapM_cons]
    rcases hf a List.mem_cons_self with ⟨c, hc⟩ | hc
    · have h' : ∃ a ∈ l, f a = .error e := by
        obtain ⟨b, hb, hb2⟩ := h
        rcases List.mem_cons.1 hb with rfl | hb
        · rw [hc] at hb2; cases hb2
        · exact ⟨b, hb, hb2⟩
      rw [hc, ih (fun b hb => hf b (List.mem_cons_of_mem _ hb)) h']
      rfl
    · rw [hc]
      rfl

theorem toNat_lt (x : Int) (k : Nat) (hx : x < 2 ^ k) : x.toNat < 2 ^ k := by
  have h2 : ((2 ^ k : Nat) : Int) = 2 ^ k := by push_cast; rfl
  have := Nat.pos_of_ne_zero (pow_ne_zero k (two_ne_zero : (2 : Nat) ≠ 0))
  omega

theorem intToArrayZ_ok (base n : Nat) (x : Int) (hb : 0 < base) (hx : x < 2 ^ (base * n)) :
    intToArrayZ base n x = .ok (constArray base n x.toNat) := by
  obtain ⟨l, h, -⟩ := intToArray_ok base n x.toNat hb (toNat_lt x _ hx)
  simp only [intToArrayZ, constArray, h]

theorem intToArrayZ_large (base n : Nat) (x : Int) (hb : 0 < base) (hx : 2 ^ (base * n) ≤ x) :
    intToArrayZ base n x = .error "AssertionError" := by
  have h2 : ((2 ^ (base * n) : Nat) : Int) = 2 ^ (base * n) := by push_cast; rfl
  have h1 : 1 < 2 ^ base := Nat.one_lt_two_pow (by omega)
  have : ¬ (elements base x.toNat).length ≤ n := by
    rw [elements_eq _ _ hb, digits_len_le _ _ _ h1, ← pow_mul]
    omega
  simp only [intToArrayZ, intToArray, if_neg this]

theorem intListToArray_ok (base n : Nat) (l : List Int) (hb : 0 < base) (hx : ∀ x ∈ l, x < 2 ^ (base * n)) :
    intListToArray base n l = .ok (l.map fun x => constArray base n x.toNat) :=
  mapM_all_ok _ _ _ fun x h => intToArrayZ_ok base n x hb (hx x h)

theorem intToArrayZ_cases (base n : Nat) (x : Int) (hb : 0 < base) :
    (∃ l, intToArrayZ base n x = .ok l) ∨ intToArrayZ base n x = .error "AssertionError" := by
  by_cases h : x < 2 ^ (base * n)
  · exact Or.inl ⟨_, intToArrayZ_ok base n x hb h⟩
  · exact Or.inr (intToArrayZ_large base n x hb (by omega))

theorem intListToArray_large (base n : Nat) (l : List Int) (hb : 0 < base) (h : ∃ x ∈ l, (2 : Int) ^ (base * n) ≤ x) :
    intListToArray base n l = .error "AssertionError" := by
  obtain ⟨x, hx, hx2⟩ := h
  exact mapM_fails _ _ _ (fun y _ => intToArrayZ_cases base n y hb) ⟨x, hx, intToArrayZ_large base n x hb hx2⟩

theorem stack_ok (x : List Arr2) (c : Nat) (hc : 0 < c) (h0 : x ≠ []) (h : ∀ a ∈ x, a.length = c) : stack x = .ok x := by
  obtain ⟨a, l, rfl⟩ := List.exists_cons_of_ne_nil h0
  have ha := h a List.mem_cons_self
  have hne : a ≠ [] := by
    rintro rfl
    simp at ha
    omega
  simp only [stack]
  rw [if_neg hne, if_pos]
  rw [List.all_eq_true]
  intro b hb
  simp [h b (List.mem_cons_of_mem _ hb), ha]

theorem stack_ragged (x : List Arr2) (h : ∃ a ∈ x, ∃ b ∈ x, a.length ≠ b.length) : stack x = .error "ValueError" := by
  match x with
  | [] => rfl
  | a :: l =>
    simp only [stack]
    split_ifs with h1 h2
    · rfl
    · exfalso
      obtain ⟨b, hb, c, hc, hne⟩ := h
      have key : ∀ d ∈ a :: l, d.length = a.length := by
        intro d hd
        rcases List.mem_cons.1 hd with rfl | hd
        · rfl
        · have := List.all_eq_true.1 h2 d hd
          simpa using this
      exact hne ((key b hb).trans (key c hc).symm)
    · rfl

theorem batchToPack_ok (base n c : Nat) (hb : 0 < base) (hc : 0 < c) (points : List (List Int)) (h0 : points ≠ [])
    (hlen : ∀ p ∈ points, p.length = c) (hr : ∀ p ∈ points, ∀ x ∈ p, x < 2 ^ (base * n)) :
    batchToPack base n points = .ok (swap01 (points.map fun p => p.map fun x => constArray base n x.toNat)) := by
  unfold batchToPack
  rw [mapM_all_ok _ _ _ fun p hp => intListToArray_ok base n p hb (hr p hp), ok_bind, stack_ok _ c hc (by simpa using h0)]
  · rfl
  · intro a ha
    obtain ⟨p, hp, rfl⟩ := List.mem_map.1 ha
    simpa using hlen p hp

theorem batchToPack_large (base n : Nat) (hb : 0 < base) (points : List (List Int))
    (h : ∃ p ∈ points, ∃ x ∈ p, (2 : Int) ^ (base * n) ≤ x) : batchToPack base n points = .error "AssertionError" := by
  unfold batchToPack
  rw [mapM_fails _ "AssertionError"]
  · rfl
  · intro p _
    by_cases hp : ∃ x ∈ p, (2 : Int) ^ (base * n) ≤ x
    · exact Or.inr (intListToArray_large base n p hb hp)
    · push Not at hp
      exact Or.inl ⟨_, intListToArray_ok base n p hb hp⟩
  · obtain ⟨p, hp, hx⟩ := h
    exact ⟨p, hp, intListToArray_large base n p hb hx⟩

theorem batchToPack_ragged (base n : Nat) (hb : 0 < base) (points : List (List Int))
    (hr : ∀ p ∈ points, ∀ x ∈ p, x < (2 : Int) ^ (base * n)) (h : ∃ p ∈ points, ∃ q ∈ points, p.length ≠ q.length) :
    batchToPack base n points = .error "ValueError" := by
  unfold batchToPack
  rw [mapM_all_ok _ _ _ fun p hp => intListToArray_ok base n p hb (hr p hp), ok_bind, stack_ragged]
  · rfl
  · obtain ⟨p, hp, q, hq, hne⟩ := h
    exact ⟨_, List.mem_map_of_mem hp, _, List.mem_map_of_mem hq, by simpa using hne⟩

theorem batchToPack_empty (base n : Nat) (points : List (List Int)) (h : ∀ p ∈ points, p = []) :
    batchToPack base n points = .error "ValueError" := by
  unfold batchToPack
  rw [mapM_all_ok _ (fun _ => []) _ fun p hp => by rw [h p hp]; rfl, ok_bind]
  cases points <;> rfl

theorem batchToPackRns_ok (c : Nat) (hc : 0 < c) (points : List (List Int)) (h0 : points ≠ [])
    (hlen : ∀ p ∈ points, p.length = c) :
    batchToPackRns points = .ok (swap01 (points.map intListToArrayRns)) := by
  unfold batchToPackRns
  rw [stack_ok _ c hc (by simpa using h0)]
  · rfl
  · intro a ha
    obtain ⟨p, hp, rfl⟩ := List.mem_map.1 ha
    simpa [intListToArrayRns] using hlen p hp

attribute [local irreducible] MODULI

theorem rns_roundtrip (x : Int) : arrayRnsToInt (intToArrayRns x) = .ok (x % (MODULI.prod : Int)) := by
  have hs := findModuli_spec TOTAL 16 (by norm_num)
  have hpos : ∀ m ∈ MODULI, 0 < m := by unfold MODULI; exact hs.1
  have hco : MODULI.Pairwise Nat.Coprime := by unfold MODULI; exact hs.2.1
  have hP : (0 : Int) < (MODULI.prod : Int) := by
    have := List.prod_pos hpos
    exact_mod_cast this
  have hlt := Int.emod_lt_of_pos x hP
  obtain ⟨pre, rs, h1, h2, h3⟩ := (Props.C35_ec_roundtrip (x % (MODULI.prod : Int)) MODULI hco hpos).1 hlt
  have hrs : rs = (intToArrayRns x).map (fun v : Nat => (v : Int)) := by
    unfold Crt.toRns at h2
    split_ifs at h2
    injection h2 with h2
    rw [← h2]
    unfold intToArrayRns
    rw [List.map_map]
    apply List.map_congr_left
    intro m hm
    have hm0 := hpos m hm
    have hd : (m : Int) ∣ (MODULI.prod : Int) := by exact_mod_cast List.dvd_prod hm
    rw [Function.comp_apply, Int.emod_emod_of_dvd _ hd, Int.toNat_of_nonneg (Int.emod_nonneg _ (by omega))]
  unfold arrayRnsToInt
  rw [h1, ← hrs, Int.emod_emod_of_dvd _ (dvd_refl _)] at *
  exact h3

theorem chunks_paddBarrett (p q : Quad (Row 24)) : Chunks 24 (paddBarrettXyzz (vals p) (vals q)) := by
  obtain ⟨x1, y1, zz1, zzz1⟩ := p
  obtain ⟨x2, y2, zz2, zzz2⟩ := q
  have h2 : 2 ≤ 24 := by omega
  let u1 := rMulB x1 zz2
  let u2 := rMulB x2 zz1
  let s1 := rMulB y1 zzz2
  let s2 := rMulB y2 zzz1
  let zz := rMulB zz1 zz2
  let zzz := rMulB zzz1 zzz2
  let p := rCondSub h2 rP u2 u1
  let r := rCondSub h2 rP s2 s1
  let pp := rMulB p p
  let rr := rMulB r r
  let ppp := rMulB pp p
  let q := rMulB u1 pp
  let zz3 := rMulB zz pp
  let a := rCondSubMod h2 rP (rCondSubMod h2 rP (rAdd3 ppp q q))
  let x3 := rCondSub h2 rP rr a
  let qx3 := rCondSub h2 rP q x3
  let s1ppp := rMulB s1 ppp
  let zzz3 := rMulB zzz ppp
  let y3 := rCondSub h2 rP (rMulB r qx3) s1ppp
  exact ⟨x3.2, y3.2, zz3.2, zzz3.2⟩

theorem chunks_pdulBarrett (p : Quad (Row 24)) : Chunks 24 (pdulBarrettXyzz (vals p)) := by
  obtain ⟨x1, y1, zz1, zzz1⟩ := p
  have h2 : 2 ≤ 24 := by omega
  let u := rCondSubMod h2 rP (rAdd2 y1 y1)
  let x1x1 := rMulB x1 x1
  let v := rMulB u u
  let w := rMulB u v
  let s := rMulB x1 v
  let s2 := rCondSubMod h2 rP (rAdd2 s s)
  let m := rCondSubMod h2 rP (rCondSubMod h2 rP (rAdd3 x1x1 x1x1 x1x1))
  let mm := rMulB m m
  let wy1 := rMulB w y1
  let zz3 := rMulB v zz1
  let zzz3 := rMulB w zzz1
  let x3 := rCondSub h2 rP mm s2
  let sx3 := rCondSub h2 rP s x3
  let y3 := rCondSub h2 rP (rMulB m sx3) wy1
  exact ⟨x3.2, y3.2, zz3.2, zzz3.2⟩

end Verif.EcBatch
