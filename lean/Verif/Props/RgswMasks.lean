import Verif.Props.RgswRecovery
import Verif.Lemmas.UniformTail
import Mathlib.GroupTheory.Index
import Mathlib.Data.Matrix.Basic

/-!
# C76: almost all bootstrapping keys give away the LWE key

Counted over all masks. The attacker sees which entry has masks with odd determinant.
-/

namespace Verif.Props
open Verif.Rlwe Verif.Nega Verif.MatrixUtils Verif.Arith Verif.Bootstrap Verif.Rgsw

/-- A homomorphism onto a finite group takes every value equally often. -/
theorem card_preimage {G H : Type*} [AddCommGroup G] [AddCommGroup H] [Fintype G] [Fintype H] [DecidableEq H]
    (f : G →+ H) (hf : Function.Surjective f) (P : H → Prop) [DecidablePred P] :
    (Finset.univ.filter fun g => P (f g)).card * Fintype.card H =
      (Finset.univ.filter fun h => P h).card * Fintype.card G := by
  have hfib : ∀ h, (Finset.univ.filter fun g => f g = h).card = (Finset.univ.filter fun g => f g = 0).card := fun h =>
    AddMonoidHom.card_fiber_eq_of_mem_range f (hf h) (hf 0)
  have h1 : (Finset.univ.filter fun g => P (f g)).card =
      (Finset.univ.filter fun h => P h).card * (Finset.univ.filter fun g => f g = 0).card := by
    rw [Finset.card_eq_sum_card_fiberwise (f := f) (t := Finset.univ.filter fun h => P h) (by
      intro g hg
      simpa using hg)]
    rw [← smul_eq_mul, ← Finset.sum_const]
    refine Finset.sum_congr rfl (fun h hh => ?_)
    rw [← hfib h, Finset.filter_filter]
    congr 1
    ext g
    simp only [Finset.mem_filter, Finset.mem_univ, true_and] at hh ⊢
    constructor
    · exact fun h' => h'.2
    · exact fun h' => ⟨h' ▸ hh, h'⟩
  have h2 : Fintype.card G = Fintype.card H * (Finset.univ.filter fun g => f g = 0).card := by
    rw [← Finset.card_univ, Finset.card_eq_sum_card_fiberwise (f := f) (t := Finset.univ) (fun _ _ => by simp)]
    rw [← Finset.card_univ (α := H), ← smul_eq_mul, ← Finset.sum_const]
    exact Finset.sum_congr rfl (fun h _ => hfib h)
  rw [h1, h2]
  ring

/-- The masks of the first `E` entries of a bootstrapping key. -/
abbrev Masks (E k L n : Nat) := Fin E → Fin (k + 1) → Fin L → Fin k → Fin n → W

/-- The parities of the masks of the chosen rows. -/
noncomputable def parities {E k L n : Nat} (rows : Fin k → Fin L) :
    Masks E k L n →+ (Fin E → Matrix (Fin k) (Fin k) (ZMod 2)) where
  toFun a := fun i => parityMatrix fun j => a i (Fin.last k) (rows j)
  map_zero' := by
    funext i
    ext j c
    show ((Finset.sum Finset.univ fun _ => (0 : W)).toNat : ZMod 2) = 0
    rw [Finset.sum_const_zero]
    rfl
  map_add' a b := by
    funext i
    ext j c
    show parityW (∑ x, (a i (Fin.last k) (rows j) c x + b i (Fin.last k) (rows j) c x)) = parityW _ + parityW _
    rw [Finset.sum_add_distrib, map_add]

theorem parities_surjective {E k L n : Nat} (hn : 0 < n) (rows : Fin k → Fin L) (hrows : Function.Injective rows) :
    Function.Surjective (parities (E := E) (n := n) rows) := by
  intro h
  refine ⟨fun i p l c x => if x.val = 0 then BitVec.ofNat 32 ((Function.extend rows (fun j => h i j c) 0 l).val) else 0, ?_⟩
  funext i
  ext j c
  show parityW (∑ x : Fin n, if x.val = 0 then BitVec.ofNat 32 ((Function.extend rows (fun j => h i j c) 0 (rows j)).val) else 0) =
    h i j c
  rw [hrows.extend_apply, Finset.sum_eq_single (⟨0, hn⟩ : Fin n) (fun x _ hx => if_neg (fun h => hx (Fin.ext h)))
    (fun h => absurd (Finset.mem_univ _) h), if_pos rfl]
  generalize h i j c = y
  revert y
  decide

/-- The number of matrices over two elements with determinant one. -/
def oddCount (k : Nat) : Nat := (Finset.univ.filter fun M : Matrix (Fin k) (Fin k) (ZMod 2) => M.det = 1).card

/-- The fraction of masks for which no entry has an odd determinant: `(1 - oddCount k / 2^(k^2))^E`. -/
theorem card_no_odd {E k L n : Nat} (hn : 0 < n) (rows : Fin k → Fin L) (hrows : Function.Injective rows) :
    (Finset.univ.filter fun a : Masks E k L n =>
      ∀ i, (parityMatrix fun j => a i (Fin.last k) (rows j)).det ≠ 1).card * (2 ^ (k * k)) ^ E =
    (2 ^ (k * k) - oddCount k) ^ E * Fintype.card (Masks E k L n) := by
  have hcM : Fintype.card (Matrix (Fin k) (Fin k) (ZMod 2)) = 2 ^ (k * k) := by
    show Fintype.card (Fin k → Fin k → ZMod 2) = _
    rw [Fintype.card_fun, Fintype.card_fun, ZMod.card, Fintype.card_fin, ← pow_mul]
  have h := card_preimage (parities (E := E) (n := n) rows) (parities_surjective hn rows hrows)
    (fun h => ∀ i, (h i).det ≠ 1)
  have hH : Fintype.card (Fin E → Matrix (Fin k) (Fin k) (ZMod 2)) = (2 ^ (k * k)) ^ E := by
    rw [Fintype.card_fun, hcM, Fintype.card_fin]
  have hP : (Finset.univ.filter fun h : Fin E → Matrix (Fin k) (Fin k) (ZMod 2) => ∀ i, (h i).det ≠ 1).card =
      (2 ^ (k * k) - oddCount k) ^ E := by
    have e1 : (Finset.univ.filter fun h : Fin E → Matrix (Fin k) (Fin k) (ZMod 2) => ∀ i, (h i).det ≠ 1) =
        Fintype.piFinset fun _ => Finset.univ.filter fun M : Matrix (Fin k) (Fin k) (ZMod 2) => M.det ≠ 1 := by
      ext h
      simp
    have e2 : (Finset.univ.filter fun M : Matrix (Fin k) (Fin k) (ZMod 2) => M.det ≠ 1).card = 2 ^ (k * k) - oddCount k := by
      have := Finset.card_filter_add_card_filter_not (s := (Finset.univ : Finset (Matrix (Fin k) (Fin k) (ZMod 2))))
        (fun M => M.det = 1)
      rw [Finset.card_univ, hcM] at this
      exact Nat.eq_sub_of_add_eq ((add_comm _ _).trans this)
    rw [e1, Fintype.card_piFinset]
    simp only [e2]
    rw [Finset.prod_const, Finset.card_univ, Fintype.card_fin]
  rw [hH, hP] at h
  exact h

/-- Whether the public masks of entry `i` of a bootstrapping key have an odd determinant. -/
def publicOdd {k n L : Nat} (rows : Fin k → Fin L) (bsk : BootstrappingKey ((k + 1) * L) k n) (i : Nat) : Prop :=
  match bskAt bsk i with
  | .ok (.words C) => (parityMatrix fun j c => C (finProdFinEquiv (Fin.last k, rows j)) (Fin.castSucc c)).det = 1
  | _ => False

/-- The masks of an entry can be read from it. -/
theorem publicOdd_gen (be : Backend) {d k n : Nat} (lz : Fin d → Bool) (s : Fin k → Fin n → W)
    (dp : DecompositionParameters) (rows : Fin k → Fin dp.levelCount)
    (a : Nat → Fin (k + 1) → Fin dp.levelCount → Fin k → Fin n → W)
    (e : Nat → Fin (k + 1) → Fin dp.levelCount → W) (useBmmp : Bool)
    (bsk : BootstrappingKey ((k + 1) * dp.levelCount) k n)
    (hgen : genBootstrappingKey be ⟨32, fun i => BitVec.ofInt 32 (bit (lz i))⟩ ⟨32, s⟩ dp a e useBmmp false = .ok bsk)
    (i : Nat) (hi : i < (if useBmmp then d + d / 2 else d)) :
    publicOdd rows bsk i ↔ (parityMatrix fun j => a i (Fin.last k) (rows j)).det = 1 := by
  obtain ⟨-, hbat, -, hat⟩ := bskAt_gen be _ _ dp a _ useBmmp false bsk hgen
  have h1 := hat i hi
  rw [hbat, ite_self] at h1
  have h2 : bskAt bsk i = .ok (.words (Rgsw.jitEncrypt be
    (bskInputs useBmmp (fun i => BitVec.ofInt 32 (bit (lz i))) i) s dp (a i) (e i) 32)) := h1
  unfold publicOdd
  rw [h2]
  simp only [mask_row]

/-- C76, consequence for the whole key: a fixed way to compute at most `2 (2B + 1)^k` candidates from a
bootstrapping key, among which is the LWE key whenever any of its `E` entries has masks with odd determinant. -/
theorem C76_lwe_key_any_entry (t k d E : Nat) (ht : 0 < t) (dp : DecompositionParameters) (hlog : 0 < dp.logBase)
    (rows : Fin k → Fin dp.levelCount) (l : Fin dp.levelCount) (B : Nat) :
    ∃ F : BootstrappingKey ((k + 1) * dp.levelCount) k (2 ^ t) → Finset (Fin d → Bool),
      (∀ bsk, (F bsk).card ≤ 2 * (2 * B + 1) ^ k) ∧
      ∀ (be : Backend) (lz : Fin d → Bool) (s : Fin k → Fin (2 ^ t) → W)
        (a : Nat → Fin (k + 1) → Fin dp.levelCount → Fin k → Fin (2 ^ t) → W)
        (e : Nat → Fin (k + 1) → Fin dp.levelCount → Int) (useBmmp : Bool)
        (bsk : BootstrappingKey ((k + 1) * dp.levelCount) k (2 ^ t)),
        genBootstrappingKey be ⟨32, fun i => BitVec.ofInt 32 (bit (lz i))⟩ ⟨32, s⟩ dp a
          (fun i p l => BitVec.ofInt 32 (e i p l)) useBmmp false = .ok bsk →
        E ≤ (if useBmmp then d + d / 2 else d) → (∀ i j, |e i (Fin.last k) (rows j)| ≤ B) →
        (∃ i < E, (parityMatrix fun j => a i (Fin.last k) (rows j)).det = 1) → lz ∈ F bsk := by
  classical
  choose F h1 h2 using fun i => C76_lwe_key_recovery t k d ht dp hlog rows l i B
  refine ⟨fun bsk => if h : ∃ i < E, publicOdd rows bsk i then F (Nat.find h) bsk else ∅, ?_, ?_⟩
  · intro bsk
    simp only
    split
    · exact h1 _ _
    · simp
  · intro be lz s a e useBmmp bsk hgen hE he hex
    have hp := publicOdd_gen be lz s dp rows a _ useBmmp bsk hgen
    have hx : ∃ i < E, publicOdd rows bsk i := by
      obtain ⟨i, hi, hdet⟩ := hex
      exact ⟨i, hi, (hp i (by omega)).2 hdet⟩
    simp only [dif_pos hx]
    obtain ⟨hi, ho⟩ := Nat.find_spec hx
    exact h2 _ be lz s a e useBmmp bsk hgen (by omega) (he _) ((hp _ (by omega)).1 ho)

/-- C76, consequence counted over all masks: for every LWE key, RLWE key and all errors of magnitude at most `B`,
the LWE key is among the at most `2 (2B + 1)^k` candidates for all but a fraction `(1 - oddCount k / 2^(k^2))^E` of
the masks of a bootstrapping key of `E` entries: `(5/8)^1200` in production. -/
theorem C76_almost_all_masks (t k d : Nat) (ht : 0 < t) (hd : d % 2 = 0) (dp : DecompositionParameters)
    (hlog : 0 < dp.logBase) (rows : Fin k → Fin dp.levelCount) (hrows : Function.Injective rows)
    (l : Fin dp.levelCount) (B : Nat) (useBmmp : Bool) (E : Nat) (hE : E = if useBmmp then d + d / 2 else d) :
    ∃ F : BootstrappingKey ((k + 1) * dp.levelCount) k (2 ^ t) → Finset (Fin d → Bool),
      (∀ bsk, (F bsk).card ≤ 2 * (2 * B + 1) ^ k) ∧
      ∀ (be : Backend) (lz : Fin d → Bool) (s : Fin k → Fin (2 ^ t) → W)
        (e : Nat → Fin (k + 1) → Fin dp.levelCount → Int), (∀ i j, |e i (Fin.last k) (rows j)| ≤ B) →
        Nat.card {a : Masks E k dp.levelCount (2 ^ t) // ¬ ∃ bsk,
          genBootstrappingKey be ⟨32, fun i => BitVec.ofInt 32 (bit (lz i))⟩ ⟨32, s⟩ dp
            (fun i => if h : i < E then a ⟨i, h⟩ else 0) (fun i p l => BitVec.ofInt 32 (e i p l)) useBmmp false =
            .ok bsk ∧ lz ∈ F bsk} * (2 ^ (k * k)) ^ E ≤
          (2 ^ (k * k) - oddCount k) ^ E * Nat.card (Masks E k dp.levelCount (2 ^ t)) := by
  classical
  obtain ⟨F, h1, h2⟩ := C76_lwe_key_any_entry t k d E ht dp hlog rows l B
  refine ⟨F, h1, fun be lz s e he => ?_⟩
  rw [Nat.card_eq_fintype_card, Nat.card_eq_fintype_card,
    ← card_no_odd (E := E) (n := 2 ^ t) (by positivity) rows hrows, Fintype.card_subtype]
  refine Nat.mul_le_mul_right _ (Finset.card_le_card (fun a ha => ?_))
  rw [Finset.mem_filter] at ha ⊢
  refine ⟨Finset.mem_univ _, fun i hi => ha.2 ?_⟩
  have hg : ∃ bsk, genBootstrappingKey be ⟨32, fun i => BitVec.ofInt 32 (bit (lz i))⟩ ⟨32, s⟩ dp
      (fun i => if h : i < E then a ⟨i, h⟩ else 0) (fun i p l => BitVec.ofInt 32 (e i p l)) useBmmp false =
      .ok bsk := by
    unfold genBootstrappingKey
    rw [if_neg (by omega)]
    exact ⟨_, rfl⟩
  obtain ⟨bsk, hb⟩ := hg
  refine ⟨bsk, hb, h2 be lz s _ e useBmmp bsk hb hE.le he ⟨i.val, i.isLt, ?_⟩⟩
  rw [dif_pos i.isLt]
  exact hi

/-- The six matrices of sixteen, in production. -/
theorem oddCount_two : oddCount 2 = 6 := by decide +kernel

/-- Non-vacuity, in production (800 LWE dimensions, 1200 entries, RLWE dimension 2, degree 512, errors up to 2560):
at most `2 * 5121^2` candidates, but for a fraction `10^1200 / 16^1200` of the masks. -/
example (E : Nat) (hE : E = 1200) : ∃ F : BootstrappingKey (3 * 6) 2 (2 ^ 9) → Finset (Fin 800 → Bool),
    (∀ bsk, (F bsk).card ≤ 2 * 5121 ^ 2) ∧
    ∀ (be : Backend) (lz : Fin 800 → Bool) (s : Fin 2 → Fin (2 ^ 9) → W),
      Nat.card {a : Masks E 2 6 (2 ^ 9) // ¬ ∃ bsk,
        genBootstrappingKey be ⟨32, fun i => BitVec.ofInt 32 (bit (lz i))⟩ ⟨32, s⟩ ⟨4, 6, 32⟩
          (fun i => if h : i < E then a ⟨i, h⟩ else 0) (fun i _ _ => BitVec.ofInt 32 (if i < 1200 then (i : Int) - 600 else 0)) true false =
          .ok bsk ∧ lz ∈ F bsk} * 16 ^ E ≤ 10 ^ E * Nat.card (Masks E 2 6 (2 ^ 9)) := by
  obtain ⟨F, h1, h2⟩ := C76_almost_all_masks 9 2 800 (by norm_num) (by norm_num) ⟨4, 6, 32⟩ (by norm_num)
    (fun j => ⟨j.val, lt_trans j.isLt (by norm_num)⟩) (fun i j h => Fin.ext (Fin.mk.inj h)) ⟨0, by norm_num⟩ 2560
    true E (by simpa using hE)
  refine ⟨F, h1, fun be lz s => ?_⟩
  have := h2 be lz s (fun i _ _ => if i < 1200 then (i : Int) - 600 else 0) (fun i j => by
    split
    · rw [abs_le]
      omega
    · norm_num)
  rw [oddCount_two, show 2 ^ (2 * 2) - 6 = 10 from rfl, show 2 ^ (2 * 2) = 16 from rfl] at this
  exact this

end Verif.Props
