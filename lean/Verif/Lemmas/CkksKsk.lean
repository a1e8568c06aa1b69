import Verif.Props.CkksEncrypt
import Verif.Props.Automorphism

/-!
# Key-switching keys: lemmas
-/

namespace Verif.CkksKeys
open Verif.Barrett Verif.NttCpu Verif.Slots Verif.Props Verif.Automorphism Verif.Crt

variable {k : Nat}

theorem getD_append_left {q p : List Nat} {i : Nat} (hi : i < q.length) : (q ++ p).getD i 0 = q.getD i 0 := by
  rw [List.getD_eq_getElem?_getD, List.getElem?_append_left hi, ← List.getD_eq_getElem?_getD]

/-- The extension of a secret key has the coefficients of its first limb, modulo every modulus. -/
theorem extend_spec {target : List Nat} (h : Moduli k target) (sk : SecretKey)
    (hpre : target.take sk.moduli.length = sk.moduli) (hlen : 0 < sk.moduli.length) :
    ∃ (ext : SecretKey) (x : Nat → Int), extendSecretKey (2 ^ k) sk target = .ok ext ∧ ext.moduli = target ∧
      Reduced k target ext.data ∧ (∀ p, p < 2 ^ k → 0 ≤ x p ∧ x p < (target.getD 0 0 : Int)) ∧
      polyOf k (target.getD 0 0) x = ringOf k (target.getD 0 0) (sk.data 0) ∧
      ∀ i, i < target.length → ringOf k (target.getD i 0) (ext.data i) = polyOf k (target.getD i 0) x := by
  have hs : Moduli k sk.moduli := by rw [← hpre]; exact h.take _
  have h0 : sk.moduli.getD 0 0 = target.getD 0 0 := by
    conv_lhs => rw [← hpre]
    exact getD_take (by rw [hpre]; exact hlen)
  obtain ⟨C, c1, c2, c3⟩ := inttMat_ringOf hs sk.data
  obtain ⟨M, m1, m2, m3⟩ := nttMat_ringOf h (fun _ p => C 0 p)
  refine ⟨{ data := M, moduli := target }, fun p => (C 0 p : Int), ?_, rfl, m2, ?_, ?_, m3⟩
  · unfold extendSecretKey
    rw [if_neg (by simpa using hpre)]
    simp only [c1, m1, bind, Except.bind, pure, Except.pure]
    rw [if_neg (by omega)]
  · intro p hp
    have := c2 0 hlen p hp
    rw [h0] at this
    exact ⟨Int.natCast_nonneg _, Int.ofNat_lt.2 this⟩
  · rw [← h0]
    exact c3 0 hlen

/-- For a key with coefficients in `[0, q_0)` the extension is the same polynomial modulo every modulus. -/
theorem extend_small {target : List Nat} (h : Moduli k target) (sk : SecretKey)
    (hpre : target.take sk.moduli.length = sk.moduli) (hlen : 0 < sk.moduli.length) (s : Nat → Int)
    (hs : ∀ p, p < 2 ^ k → 0 ≤ s p ∧ s p < (target.getD 0 0 : Int))
    (hsk : ringOf k (target.getD 0 0) (sk.data 0) = polyOf k (target.getD 0 0) s) :
    ∃ ext, extendSecretKey (2 ^ k) sk target = .ok ext ∧ ext.moduli = target ∧ Reduced k target ext.data ∧
      ∀ i, i < target.length → ringOf k (target.getD i 0) (ext.data i) = polyOf k (target.getD i 0) s := by
  obtain ⟨ext, x, h1, h2, h3, h4, h5, h6⟩ := extend_spec h sk hpre hlen
  refine ⟨ext, h1, h2, h3, ?_⟩
  intro i hi
  rw [h6 i hi]
  apply polyOf_congr
  intro p hp
  rw [hsk] at h5
  have := polyOf_inj h5 p hp
  rw [Int.emod_eq_of_lt (h4 p hp).1 (h4 p hp).2, Int.emod_eq_of_lt (hs p hp).1 (hs p hp).2] at this
  rw [this]

theorem part_iff {numQ dnum : Nat} (part i : Nat) (hi : i < numQ) (hd : 0 < dnum) :
    (part * ((numQ + dnum - 1) / dnum) < min ((part + 1) * ((numQ + dnum - 1) / dnum)) numQ ∧
      part * ((numQ + dnum - 1) / dnum) ≤ i ∧ i < min ((part + 1) * ((numQ + dnum - 1) / dnum)) numQ) ↔
    i / ((numQ + dnum - 1) / dnum) = part := by
  have ha : 0 < (numQ + dnum - 1) / dnum := Nat.div_pos (by omega) hd
  generalize (numQ + dnum - 1) / dnum = a at *
  constructor
  · rintro ⟨-, h1, h2⟩
    rw [Nat.div_eq_iff ha]
    have := lt_of_lt_of_le h2 (Nat.min_le_left _ _)
    rw [Nat.succ_mul] at this
    constructor <;> [linarith; omega]
  · rintro rfl
    have h1 : i / a * a ≤ i := Nat.div_mul_le_self i a
    have h2 : i < (i / a + 1) * a := by
      rw [Nat.mul_comm]; exact Nat.lt_mul_div_succ i ha
    refine ⟨?_, h1, ?_⟩ <;> rw [lt_min_iff] <;> constructor <;> omega

/-- The ring elements of the keys of `gen_key_switching_key`, given the extended key. -/
theorem ksk_spec {q p : List Nat} (hq : Moduli k q) (hp : Moduli k p) (dnum : Nat) (hd : 0 < dnum) (src dst ext : SecretKey)
    (hsrc : q.length ≤ src.moduli.length) (hred : Reduced k q src.data)
    (hext : ext.moduli.length = (q ++ p).length) (hextr : Reduced k (q ++ p) ext.data) (rand : Nat → Mat × (Nat → Int)) :
    ∃ keys, genKsk (2 ^ k) src dst q p dnum rand (some ext) = .ok keys ∧ keys.moduli = q ++ p ∧
      keys.a.length = dnum ∧ keys.b.length = dnum ∧
      ∀ part, part < dnum →
        Reduced k (q ++ p) (keys.a.getD part (fun _ _ => 0)) ∧ Reduced k (q ++ p) (keys.b.getD part (fun _ _ => 0)) ∧
        ∀ i, i < (q ++ p).length →
          ringOf k ((q ++ p).getD i 0) (keys.a.getD part (fun _ _ => 0) i) =
            polyOf k ((q ++ p).getD i 0) (fun t => ((rand part).1 i t : Int)) ∧
          ringOf k ((q ++ p).getD i 0) (keys.b.getD part (fun _ _ => 0) i) =
            polyOf k ((q ++ p).getD i 0) (rand part).2 +
              (if i < q.length ∧ i / ((q.length + dnum - 1) / dnum) = part then
                (p.prod : Rq k ((q ++ p).getD i 0)) * ringOf k ((q ++ p).getD i 0) (src.data i) else 0) -
              ringOf k ((q ++ p).getD i 0) (keys.a.getD part (fun _ _ => 0) i) *
                ringOf k ((q ++ p).getD i 0) (ext.data i) := by
  have hall := hq.append hp
  obtain ⟨f, hf⟩ : ∃ f : Nat → Except String (Mat × Mat), f = fun (part : Nat) => (do
    let aSlots ← nttMat (2 ^ k) (q ++ p) (rand part).1
    let eSlots ← nttMat (2 ^ k) (q ++ p) (residues (q ++ p) (rand part).2)
    let start := part * ((q.length + dnum - 1) / dnum)
    let stop := min ((part + 1) * ((q.length + dnum - 1) / dnum)) q.length
    let scaled := scaledSource src q (Crt.product p) start stop
    let b : Mat := fun i t =>
      let m := (q ++ p).getD i 0
      let prod := mul64 (aSlots i t) (ext.data i t) % m
      sub64 (add64 (add64 (eSlots i t) (scaled i t)) m) prod % m
    pure (aSlots, b)) := ⟨_, rfl⟩
  have hpart : ∀ part, ∃ ab, f part = .ok ab ∧ Reduced k (q ++ p) ab.1 ∧ Reduced k (q ++ p) ab.2 ∧
      ∀ i, i < (q ++ p).length →
          ringOf k ((q ++ p).getD i 0) (ab.1 i) =
            polyOf k ((q ++ p).getD i 0) (fun t => ((rand part).1 i t : Int)) ∧
          ringOf k ((q ++ p).getD i 0) (ab.2 i) =
            polyOf k ((q ++ p).getD i 0) (rand part).2 +
              (if i < q.length ∧ i / ((q.length + dnum - 1) / dnum) = part then
                (p.prod : Rq k ((q ++ p).getD i 0)) * ringOf k ((q ++ p).getD i 0) (src.data i) else 0) -
              ringOf k ((q ++ p).getD i 0) (ab.1 i) * ringOf k ((q ++ p).getD i 0) (ext.data i) := by
    intro part
    obtain ⟨A, a1, a2, a3⟩ := nttMat_ringOf hall (rand part).1
    obtain ⟨E, e1, e2, e3⟩ := nttMat_ringOf hall (residues (q ++ p) (rand part).2)
    have hA : f part = .ok (A, fun i t =>
      sub64 (add64 (add64 (E i t) (scaledSource src q (Crt.product p) (part * ((q.length + dnum - 1) / dnum))
        (min ((part + 1) * ((q.length + dnum - 1) / dnum)) q.length) i t)) ((q ++ p).getD i 0))
        (mul64 (A i t) (ext.data i t) % (q ++ p).getD i 0) % (q ++ p).getD i 0) := by
      rw [hf]
      simp only [a1, e1, bind, Except.bind, pure, Except.pure]
    refine ⟨_, hA, a2, ?_, ?_⟩
    · intro i hi t _
      exact Nat.mod_lt _ (hall.at hi).1.prime.pos
    · intro i hi
      obtain ⟨hpr, hlt⟩ := hall.at hi
      refine ⟨a3 i hi, ?_⟩
      have hE := e3 i hi
      rw [polyOf_residues hall _ hi] at hE
      rw [← hE, ringOf_eq_iff hpr]
      intro t ht
      have hscaled : ∀ (hq2 : i < q.length ∧ i / ((q.length + dnum - 1) / dnum) = part),
          scaledSource src q (Crt.product p) (part * ((q.length + dnum - 1) / dnum))
            (min ((part + 1) * ((q.length + dnum - 1) / dnum)) q.length) i t =
          src.data i t * (p.prod % (q ++ p).getD i 0) % (q ++ p).getD i 0 := by
        intro hq2
        unfold scaledSource
        rw [if_pos ((part_iff part i hq2.1 hd).2 hq2.2)]
        simp only
        rw [← getD_append_left (p := p) hq2.1, product_eq]
        have h1 := hred i hq2.1 t ht
        rw [← getD_append_left (p := p) hq2.1] at h1
        have h2 := Nat.mod_lt p.prod hpr.prime.pos
        rw [mul64_eq (by omega) (by omega)]
      have hscaled0 : ∀ (hq2 : ¬ (i < q.length ∧ i / ((q.length + dnum - 1) / dnum) = part)),
          scaledSource src q (Crt.product p) (part * ((q.length + dnum - 1) / dnum))
            (min ((part + 1) * ((q.length + dnum - 1) / dnum)) q.length) i t = 0 := by
        intro hq2
        unfold scaledSource
        rw [if_neg]
        intro h3
        have hiq : i < q.length := lt_of_lt_of_le h3.2.2 (Nat.min_le_right _ _)
        exact hq2 ⟨hiq, (part_iff part i hiq hd).1 h3⟩
      rw [map_sub, map_add, map_mul, slot_ringOf hpr _ t ht, slot_ringOf hpr _ t ht, slot_ringOf hpr _ t ht]
      rw [mask_cast hlt (e2 i hi t ht) _ (a2 i hi t ht) (hextr i hi t ht)]
      · congr 2
        by_cases hq2 : i < q.length ∧ i / ((q.length + dnum - 1) / dnum) = part
        · rw [if_pos hq2, hscaled hq2, map_mul, slot_ringOf hpr _ t ht, map_natCast, ZMod.natCast_mod, Nat.cast_mul,
            ZMod.natCast_mod, mul_comm]
        · rw [if_neg hq2, hscaled0 hq2, map_zero, Nat.cast_zero]
      · by_cases hq2 : i < q.length ∧ i / ((q.length + dnum - 1) / dnum) = part
        · rw [hscaled hq2]; exact Nat.mod_lt _ hpr.prime.pos
        · rw [hscaled0 hq2]; exact hpr.prime.pos
  obtain ⟨parts, r1, r2, r3⟩ := mapM_ok f (List.range dnum) (fun part _ => by
    obtain ⟨ab, h, -⟩ := hpart part
    exact ⟨ab, h⟩)
  simp only [List.length_range] at r2
  refine ⟨{ a := parts.map Prod.fst, b := parts.map Prod.snd, moduli := q ++ p }, ?_, rfl, by simpa using r2,
    by simpa using r2, ?_⟩
  · unfold genKsk
    simp only [bind, Except.bind, pure, Except.pure]
    rw [if_neg (by omega), if_neg (by omega)]
    simp only [bind, Except.bind, pure, Except.pure] at hf
    rw [← hf, r1]
  · intro part hpt
    have h4 := r3 part (by simpa using hpt) (by omega)
    rw [List.getElem_range] at h4
    obtain ⟨ab, g1, g2, g3, g4⟩ := hpart part
    rw [g1] at h4
    have h5 := Except.ok.inj h4
    have ea : (parts.map Prod.fst).getD part (fun _ _ => 0) = ab.1 := by
      rw [List.getD_eq_getElem _ _ (by simp; omega), List.getElem_map, h5]
    have eb : (parts.map Prod.snd).getD part (fun _ _ => 0) = ab.2 := by
      rw [List.getD_eq_getElem _ _ (by simp; omega), List.getElem_map, h5]
    simp only [ea, eb]
    exact ⟨g2, g3, g4⟩

theorem genKsk_none {q p : List Nat} (dnum : Nat) (src dst ext : SecretKey) (rand : Nat → Mat × (Nat → Int))
    (h : extendSecretKey (2 ^ k) dst (q ++ p) = .ok ext) :
    genKsk (2 ^ k) src dst q p dnum rand none = genKsk (2 ^ k) src dst q p dnum rand (some ext) := by
  unfold genKsk
  simp only [h, bind, Except.bind, pure, Except.pure]

end Verif.CkksKeys
