import Verif.Lemmas.CkksKsk

/-!
# Property C40: key-switching keys
-/

namespace Verif.Props
open Verif.Barrett Verif.NttCpu Verif.Slots Verif.CkksKeys Verif.Automorphism Verif.Crt

/-- `sk` is the key with integer coefficients `s` over the moduli `q`: what `keygen` returns (`C40_keygen_holds`). -/
structure HoldsKey (k : Nat) (q : List Nat) (s : Nat → Int) (sk : SecretKey) : Prop where
  moduli : sk.moduli = q
  reduced : Reduced k q sk.data
  ring : ∀ i, i < q.length → ringOf k (q.getD i 0) (sk.data i) = polyOf k (q.getD i 0) s

/-- Coefficients 0 and 1, as drawn by `gen_ternary_poly` and `gen_sparse_binary`. -/
def Binary (s : Nat → Int) : Prop := ∀ p, s p = 0 ∨ s p = 1

/-- Keys of `keygen` satisfy `HoldsKey`. -/
theorem C40_keygen_holds (k : Nat) (ms : List Nat) (h : Moduli k ms) (s e : Nat → Int) (a : Mat) :
    ∃ pk sk, keygen (2 ^ k) ms s e a = .ok (pk, sk) ∧ HoldsKey k ms s sk := by
  obtain ⟨pk, sk, h1, -, h3, -, -, h6, h7⟩ := keygen_spec k ms h s e a
  exact ⟨pk, sk, h1, h3, h6, fun i hi => (h7 i hi).1⟩

theorem binary_bounds {k : Nat} {q : List Nat} (h : Moduli k q) (hne : q ≠ []) {s : Nat → Int} (hs : Binary s) :
    ∀ p, p < 2 ^ k → 0 ≤ s p ∧ s p < (q.getD 0 0 : Int) := by
  intro p _
  have h2 := (h.at (List.length_pos_iff.2 hne)).1.prime.two_le
  rcases hs p with h | h <;> rw [h] <;> omega

/-- C40: for a 0/1 key, `extend_secret_key` returns the same key over any longer list of moduli. -/
theorem C40_extend (k : Nat) (q p : List Nat) (hq : Moduli k q) (hp : Moduli k p) (hne : q ≠ []) (s : Nat → Int)
    (hs : Binary s) (sk : SecretKey) (hsk : HoldsKey k q s sk) :
    ∃ ext, extendSecretKey (2 ^ k) sk (q ++ p) = .ok ext ∧ HoldsKey k (q ++ p) s ext := by
  have hl := List.length_pos_iff.2 hne
  have h0 : (q ++ p).getD 0 0 = q.getD 0 0 := getD_append_left hl
  obtain ⟨ext, h1, h2, h3, h4⟩ := extend_small (hq.append hp) sk (by rw [hsk.moduli]; simp) (by rw [hsk.moduli]; exact hl)
    s (by rw [h0]; exact binary_bounds hq hne hs) (by rw [h0]; exact hsk.ring 0 hl)
  exact ⟨ext, h1, h2, h3, h4⟩

/-- C40: each part of a key-switching key encrypts, under the destination key `s`, the product `P` of the auxiliary
moduli times the source key on the limbs of that part (limb `i` belongs to part `i / ⌈numQ / dnum⌉`) and zero on all
other limbs, up to the drawn error. -/
theorem C40_ksk (k : Nat) (q p : List Nat) (hq : Moduli k q) (hp : Moduli k p) (hne : q ≠ []) (dnum : Nat) (hd : 0 < dnum)
    (s : Nat → Int) (hs : Binary s) (dst : SecretKey) (hdst : HoldsKey k q s dst)
    (src : SecretKey) (hsrc : q.length = src.moduli.length) (hred : Reduced k q src.data)
    (rand : Nat → Mat × (Nat → Int)) :
    ∃ keys, genKsk (2 ^ k) src dst q p dnum rand none = .ok keys ∧ keys.moduli = q ++ p ∧
      keys.a.length = dnum ∧ keys.b.length = dnum ∧
      ∀ part, part < dnum →
        Reduced k (q ++ p) (keys.a.getD part (fun _ _ => 0)) ∧ Reduced k (q ++ p) (keys.b.getD part (fun _ _ => 0)) ∧
        ∀ i, i < (q ++ p).length →
          ringOf k ((q ++ p).getD i 0) (keys.b.getD part (fun _ _ => 0) i) +
            ringOf k ((q ++ p).getD i 0) (keys.a.getD part (fun _ _ => 0) i) * polyOf k ((q ++ p).getD i 0) s =
          polyOf k ((q ++ p).getD i 0) (rand part).2 +
            (if i < q.length ∧ i / ((q.length + dnum - 1) / dnum) = part then
              (p.prod : Rq k ((q ++ p).getD i 0)) * ringOf k ((q ++ p).getD i 0) (src.data i) else 0) := by
  obtain ⟨ext, h1, h2⟩ := C40_extend k q p hq hp hne s hs dst hdst
  obtain ⟨keys, g1, g2, g3, g4, g5⟩ := ksk_spec hq hp dnum hd src dst ext (by omega) hred
    (by rw [h2.moduli]) h2.reduced rand
  refine ⟨keys, by rw [genKsk_none dnum src dst ext rand h1, g1], g2, g3, g4, ?_⟩
  intro part hpt
  obtain ⟨a1, a2, a3⟩ := g5 part hpt
  refine ⟨a1, a2, ?_⟩
  intro i hi
  rw [(a3 i hi).2, h2.ring i hi]
  ring

/-- C40: the parts partition the limbs: every limb belongs to exactly one of the `dnum` parts, and the part size is the
least that suffices. -/
theorem C40_parts (numQ dnum : Nat) (hd : 0 < dnum) :
    (∀ i, i < numQ → i / ((numQ + dnum - 1) / dnum) < dnum) ∧
    numQ ≤ (numQ + dnum - 1) / dnum * dnum ∧ ∀ a, numQ ≤ a * dnum → (numQ + dnum - 1) / dnum ≤ a := by
  have h1 : numQ ≤ (numQ + dnum - 1) / dnum * dnum := by
    have := Nat.div_add_mod (numQ + dnum - 1) dnum
    have h2 := Nat.mod_lt (numQ + dnum - 1) hd
    rw [Nat.mul_comm] at this
    omega
  refine ⟨?_, h1, ?_⟩
  · intro i hi
    apply Nat.div_lt_of_lt_mul
    omega
  · intro a ha
    rw [Nat.div_le_iff_le_mul_add_pred hd]
    rw [Nat.mul_comm]
    omega

example := C40_parts 7 3 (by norm_num)

/-- C40: the evaluation key switches from `s^2`. -/
theorem C40_evaluation_key (k : Nat) (q p : List Nat) (hq : Moduli k q) (hp : Moduli k p) (hne : q ≠ []) (dnum : Nat)
    (hd : 0 < dnum) (s : Nat → Int) (hs : Binary s) (sk : SecretKey) (hsk : HoldsKey k q s sk)
    (rand : Nat → Mat × (Nat → Int)) :
    ∃ keys, genEvaluationKey (2 ^ k) sk q p dnum rand = .ok keys ∧ keys.moduli = q ++ p ∧
      ∀ part, part < dnum → ∀ i, i < (q ++ p).length →
          ringOf k ((q ++ p).getD i 0) (keys.b.getD part (fun _ _ => 0) i) +
            ringOf k ((q ++ p).getD i 0) (keys.a.getD part (fun _ _ => 0) i) * polyOf k ((q ++ p).getD i 0) s =
          polyOf k ((q ++ p).getD i 0) (rand part).2 +
            (if i < q.length ∧ i / ((q.length + dnum - 1) / dnum) = part then
              (p.prod : Rq k ((q ++ p).getD i 0)) * polyOf k ((q ++ p).getD i 0) s ^ 2 else 0) := by
  have hlen : q.length = sk.moduli.length := by rw [hsk.moduli]
  obtain ⟨keys, g1, g2, -, -, g5⟩ := C40_ksk k q p hq hp hne dnum hd s hs sk hsk
    { data := fun i t => mul64 (sk.data i t) (sk.data i t) % q.getD i 0, moduli := sk.moduli } hlen
    (fun i hi t _ => Nat.mod_lt _ (hq.at hi).1.prime.pos) rand
  refine ⟨keys, ?_, g2, ?_⟩
  · unfold genEvaluationKey
    rw [if_neg (by omega)]
    exact g1
  · intro part hpt i hi
    rw [(g5 part hpt).2.2 i hi]
    congr 1
    by_cases hc : i < q.length ∧ i / ((q.length + dnum - 1) / dnum) = part
    · rw [if_pos hc, if_pos hc]
      congr 1
      obtain ⟨hpr, hlt⟩ := hq.at hc.1
      rw [getD_append_left hc.1, ← hsk.ring i hc.1, ringOf_eq_iff hpr]
      intro t ht
      have hb := hsk.reduced i hc.1 t ht
      rw [map_pow, slot_ringOf hpr _ t ht]
      simp only
      rw [mul64_eq (by omega) (by omega), ZMod.natCast_mod, Nat.cast_mul, sq]
    · rw [if_neg hc, if_neg hc]

/-- C40: the conjugation key switches from `s(X^-1)`. -/
theorem C40_conjugate_key (k : Nat) (q p : List Nat) (hq : Moduli k q) (hp : Moduli k p) (hne : q ≠ []) (dnum : Nat)
    (hd : 0 < dnum) (s sInv : Nat → Int) (hs : Binary s) (h0 : sInv 0 = s 0)
    (hinv : ∀ j, 0 < j → j < 2 ^ k → sInv (2 ^ k - j) = -s j)
    (sk : SecretKey) (hsk : HoldsKey k q s sk) (rand : Nat → Mat × (Nat → Int)) :
    ∃ keys, genConjugateKey (2 ^ k) sk q p dnum rand = .ok keys ∧ keys.moduli = q ++ p ∧
      ∀ part, part < dnum → ∀ i, i < (q ++ p).length →
          ringOf k ((q ++ p).getD i 0) (keys.b.getD part (fun _ _ => 0) i) +
            ringOf k ((q ++ p).getD i 0) (keys.a.getD part (fun _ _ => 0) i) * polyOf k ((q ++ p).getD i 0) s =
          polyOf k ((q ++ p).getD i 0) (rand part).2 +
            (if i < q.length ∧ i / ((q.length + dnum - 1) / dnum) = part then
              (p.prod : Rq k ((q ++ p).getD i 0)) * polyOf k ((q ++ p).getD i 0) sInv else 0) := by
  have hlen : q.length = sk.moduli.length := by rw [hsk.moduli]
  have hN := Nat.one_le_two_pow (n := k)
  obtain ⟨keys, g1, g2, -, -, g5⟩ := C40_ksk k q p hq hp hne dnum hd s hs sk hsk
    { data := fun i => Automorphism.flip (2 ^ k) (sk.data i), moduli := sk.moduli } hlen
    (fun i hi t ht => by simp only [Automorphism.flip]; exact hsk.reduced i hi _ (by omega)) rand
  refine ⟨keys, g1, g2, ?_⟩
  intro part hpt i hi
  rw [(g5 part hpt).2.2 i hi]
  congr 1
  by_cases hc : i < q.length ∧ i / ((q.length + dnum - 1) / dnum) = part
  · rw [if_pos hc, if_pos hc]
    congr 1
    obtain ⟨hpr, hlt⟩ := hq.at hc.1
    rw [getD_append_left hc.1]
    simp only
    rw [flip_ringOf hpr, hsk.ring i hc.1]
    exact sigma_isSubst k _ _ _ s sInv (isSubst_inv k s sInv h0 hinv)
  · rw [if_neg hc, if_neg hc]

/-- C40: moduli that do not extend the key's are rejected, and so is `dnum = 0`. -/
theorem C40_rejects (k : Nat) (q p : List Nat) (hq : Moduli k q) (hp : Moduli k p) (sk src : SecretKey) (dnum : Nat)
    (rand : Nat → Mat × (Nat → Int)) (target : List Nat) :
    (¬ sk.moduli <+: target → extendSecretKey (2 ^ k) sk target = .error "ValueError") ∧
    (¬ sk.moduli <+: q ++ p → genKsk (2 ^ k) src sk q p dnum rand none = .error "ValueError") ∧
    (∃ e, genKsk (2 ^ k) src sk q p 0 rand none = .error e) := by
  have h1 : ∀ target, ¬ sk.moduli <+: target → extendSecretKey (2 ^ k) sk target = .error "ValueError" := by
    intro target h
    unfold extendSecretKey
    rw [if_pos]
    intro h2
    exact h (h2 ▸ List.take_prefix _ _)
  refine ⟨h1 target, ?_, ?_⟩
  · intro h
    unfold genKsk
    simp only [h1 _ h, bind, Except.bind]
  · unfold genKsk
    simp only [bind, Except.bind]
    cases extendSecretKey (2 ^ k) sk (q ++ p) with
    | error e => exact ⟨e, rfl⟩
    | ok ext => exact ⟨"ZeroDivisionError", rfl⟩

/-- C40: the extension really needs non-negative coefficients: the key `s = -1` over the modulus 5 is extended to 4, not
to -1, modulo 13. (`gen_ternary_poly` draws from `{0, 1}`, so such keys do not arise from `keygen`.) -/
theorem C40_extend_negative :
    ∃ sk ext, nttMat 2 [5] (residues [5] (fun p => if p = 0 then -1 else 0)) = .ok sk ∧
      extendSecretKey 2 { data := sk, moduli := [5] } [5, 13] = .ok ext ∧
      ext.data 1 0 = 4 ∧ ext.data 1 1 = 4 := by
  have h : (match nttMat 2 [5] (residues [5] (fun p => if p = 0 then -1 else 0)) with
    | .ok sk => match extendSecretKey 2 { data := sk, moduli := [5] } [5, 13] with
      | .ok ext => decide (ext.data 1 0 = 4 ∧ ext.data 1 1 = 4)
      | _ => false
    | _ => false) = true := by decide +kernel
  revert h
  cases nttMat 2 [5] (residues [5] (fun p => if p = 0 then -1 else 0)) with
  | error e => simp
  | ok sk =>
    simp only
    cases h2 : extendSecretKey 2 { data := sk, moduli := [5] } [5, 13] with
    | error e => simp
    | ok ext =>
      intro h
      simp only [decide_eq_true_eq] at h
      exact ⟨sk, ext, rfl, h2, h⟩

theorem moduli_1073184769 : Moduli 12 [1073184769] :=
  ⟨by intro m hm; simp at hm; subst hm; exact FourStep.nttPrime fourStep_64_64, by simp⟩

/-- A non-zero key over a real modulus. -/
theorem key_1073184769 : ∃ (s : Nat → Int) (sk : SecretKey), Binary s ∧ s 3 = 1 ∧ HoldsKey 12 [1073184769] s sk := by
  obtain ⟨pk, sk, -, h2⟩ := C40_keygen_holds 12 _ moduli_1073184769 (fun p => if p = 3 then 1 else 0) (fun _ => 0)
    (fun _ _ => 0)
  refine ⟨_, sk, ?_, ?_, h2⟩
  · intro p
    by_cases hp : p = 3 <;> simp [hp]
  · simp

/-- The hypotheses of `C40_extend`, `C40_ksk`, `C40_evaluation_key` and `C40_conjugate_key` are met by a non-zero key over a
real modulus, with source and destination equal and non-zero masks and errors. -/
example : ∃ (s : Nat → Int) (sk : SecretKey), Binary s ∧ s 3 = 1 ∧ HoldsKey 12 [1073184769] s sk ∧
    (∃ ext, extendSecretKey (2 ^ 12) sk ([1073184769] ++ [1073184769]) = .ok ext) ∧
    (∃ keys, genKsk (2 ^ 12) sk sk [1073184769] [1073184769] 1 (fun _ => (fun _ p => p, fun p => p % 3)) none = .ok keys) ∧
    (∃ keys, genEvaluationKey (2 ^ 12) sk [1073184769] [1073184769] 1 (fun _ => (fun _ p => p, fun p => p % 3)) = .ok keys) ∧
    (∃ keys, genConjugateKey (2 ^ 12) sk [1073184769] [1073184769] 1 (fun _ => (fun _ p => p, fun p => p % 3)) = .ok keys) := by
  obtain ⟨s, sk, h1, h2, h3⟩ := key_1073184769
  have hm := moduli_1073184769
  obtain ⟨x1, y1, -⟩ := C40_extend 12 _ [1073184769] hm hm (by simp) s h1 sk h3
  obtain ⟨x2, y2, -⟩ := C40_ksk 12 _ [1073184769] hm hm (by simp) 1 one_pos s h1 sk h3 sk (by rw [h3.moduli]) h3.reduced
    (fun _ => (fun _ p => p, fun p => p % 3))
  obtain ⟨x3, y3, -⟩ := C40_evaluation_key 12 _ [1073184769] hm hm (by simp) 1 one_pos s h1 sk h3
    (fun _ => (fun _ p => p, fun p => p % 3))
  obtain ⟨x4, y4, -⟩ := C40_conjugate_key 12 _ [1073184769] hm hm (by simp) 1 one_pos s
    (fun j => if j = 0 then s 0 else -s (2 ^ 12 - j)) h1 (by simp)
    (fun j h0 hj => by
      rw [if_neg (by omega), show 2 ^ 12 - (2 ^ 12 - j) = j by omega]) sk h3
    (fun _ => (fun _ p => p, fun p => p % 3))
  exact ⟨s, sk, h1, h2, h3, ⟨x1, y1⟩, ⟨x2, y2⟩, ⟨x3, y3⟩, ⟨x4, y4⟩⟩

end Verif.Props
