import Verif.Lemmas.Game
import Verif.Lemmas.Decomposition
import Verif.Lemmas.UniformTail
import Verif.Props.Session

/-!
# Property C96: encryptions of bits are as hard to tell apart as LWE samples are to tell from uniform vectors

The theorems about correctness hold as well for a library that encrypts without noise, with a mask of zeros, or with the
same mask twice. The statements here do not. They are reductions: the advantage of an attacker against the encryption is
bounded by advantages, against the decisional LWE problem, of two attackers that do nothing but add messages to the
samples they are given.
-/

namespace Verif.Props
open Verif.Arith Verif.Game Verif.Session Verif.Rlwe Verif.UniformTail

/-- An LWE sample with mask `a` and error `e` for the secret `s`. -/
def lweSample {d : Nat} (s : Fin d → W) (x : (Fin d → W) × W) : Fin (d + 1) → W :=
  Fin.snoc (α := fun _ => W) x.1 (∑ i, x.1 i * s i + x.2)

/-- Probability of a mask and an error: masks are uniform, errors have probability `χ`. -/
noncomputable def lweWeight {d : Nat} (χ : W → ℝ) (x : (Fin d → W) × W) : ℝ := 1 / (Fintype.card (Fin d → W) : ℝ) * χ x.2

/-- Advantage in the decisional LWE problem with `q` samples; secrets have probability `κ`. -/
noncomputable def lweAdvantage {d : Nat} (κ : (Fin d → W) → ℝ) (χ : W → ℝ) (q : Nat)
    (guess : List (Fin (d + 1) → W) → ℝ) : ℝ :=
  advantage κ (lweWeight χ) lweSample q guess

/-- The vector that is added to a sample for the bit `b`. -/
def bitVector (d : Nat) (b : Bool) : Fin (d + 1) → W := Fin.snoc (α := fun _ => W) (fun _ => 0) (if b then 0x10000000#32 else 0)

/-- What the attacker does with the samples of an LWE problem: adds its messages, then guesses. -/
def lweAttack {d : Nat} (choose : List (Fin (d + 1) → W) → Bool) (guess : List (Fin (d + 1) → W) → ℝ)
    (samples : List (Fin (d + 1) → W)) : ℝ :=
  guess (simulate (fun hist => bitVector d (choose hist)) [] samples)

/-- An encryption oracle: `q` calls of `encrypt`, each for a bit that may depend on the ciphertexts before. -/
def oracle {σ : Type} {d k logN : Nat} (cks : JaxiteBool.ClientKeySet d k logN) (prg : RandomSource σ)
    (choose : List (Fin (d + 1) → W) → Bool) : Nat → List (Fin (d + 1) → W) → Draw σ (List (Fin (d + 1) → W))
  | 0, hist => pure hist
  | q + 1, hist => do
    let c ← Session.encrypt (choose hist) cks prg
    oracle cks prg choose q (hist ++ [c])

/-- A random source that reads its samples from two lists: uniform words and rounded normal samples. -/
def tapeSource : RandomSource (List W × List W) :=
  { uniform := fun s => (((s.1.headD 0).toNat : Int), (s.1.tail, s.2))
    roundedNormal := fun s => ((s.2.headD 0).toInt, (s.1, s.2.tail))
    skUniform := fun s => (0, s) }

/-- Masks and errors of successive encryptions, in the order in which they are drawn. -/
def tape {d : Nat} (l : List ((Fin d → W) × W)) : List W × List W := (l.flatMap (fun x => List.ofFn x.1), l.map Prod.snd)

/-- Expected guess of an attacker who sees `q` encryptions of the bits it chooses, under a random key: uniform masks,
errors with probability `χ`, all draws independent. A run that raised would count zero. -/
noncomputable def encryptionGame {d k logN : Nat} (κ : (Fin d → W) → ℝ) (χ : W → ℝ) (rlweSk : RlweSecretKey k (2 ^ logN))
    (choose : List (Fin (d + 1) → W) → Bool) (guess : List (Fin (d + 1) → W) → ℝ) (q : Nat) : ℝ :=
  ∑ s, κ s * expectIid (lweWeight (d := d) χ) q (fun l =>
    match oracle (d := d) ⟨⟨32, s⟩, rlweSk⟩ tapeSource choose q [] (tape l) with
    | .ok (cts, _) => guess cts
    | .error _ => 0)

theorem draw_uniform (n : Nat) (l : List W) (u : List W) (v : List W) (h : l.length = n) :
    Helpers.draw tapeSource.uniform n (l ++ u, v) = (l.map (fun w => (w.toNat : Int)), (u, v)) := by
  induction l generalizing n with
  | nil => subst h; rfl
  | cons w l ih =>
    subst h
    unfold Helpers.draw
    simp only [List.length_cons, tapeSource, List.cons_append, List.headD_cons, List.tail_cons, List.map_cons]
    rw [show Helpers.draw (fun s : List W × List W => (((s.1.headD 0).toNat : Int), (s.1.tail, s.2))) l.length (l ++ u, v) =
      _ from ih l.length rfl]

theorem draw_normal (n : Nat) (l : List W) (u : List W) (v : List W) (h : l.length = n) :
    Helpers.draw tapeSource.roundedNormal n (u, l ++ v) = (l.map BitVec.toInt, (u, v)) := by
  induction l generalizing n with
  | nil => subst h; rfl
  | cons w l ih =>
    subst h
    unfold Helpers.draw
    simp only [List.length_cons, tapeSource, List.cons_append, List.headD_cons, List.tail_cons, List.map_cons]
    rw [show Helpers.draw (fun s : List W × List W => ((s.2.headD 0).toInt, (s.1, s.2.tail))) l.length (u, l ++ v) =
      _ from ih l.length rfl]

theorem foldl_ofNat (shape : List Nat) (a : Nat) :
    (shape.map Int.ofNat).foldl (fun a b => a * b) (a : Int) = ((shape.foldl (fun a b => a * b) a : Nat) : Int) := by
  induction shape generalizing a with
  | nil => rfl
  | cons x t ih =>
    simp only [List.map_cons, List.foldl_cons]
    rw [← ih (a * x)]
    congr 1

/-- A sampled array, in terms of the drawn list. -/
theorem sample_eq {σ : Type} (gen : σ → Int × σ) (shape : List Nat) (s : σ) :
    sample gen shape s = .ok
      (⟨shape, (Helpers.draw gen (shape.foldl (fun a b => a * b) 1) s).1.map
        (fun v => Helpers.normalizeValue v (.unsigned 32))⟩,
       (Helpers.draw gen (shape.foldl (fun a b => a * b) 1) s).2) := by
  have h1 : ((shape.map Int.ofNat).foldl (fun a b => a * b) 1).toNat = shape.foldl (fun a b => a * b) 1 := by
    have := foldl_ofNat shape 1
    simp only [Nat.cast_one] at this
    rw [this, Int.toNat_natCast]
  have h2 : (shape.map Int.ofNat).map Int.toNat = shape := by
    rw [List.map_map]
    exact (List.map_congr_left (fun _ _ => rfl)).trans (List.map_id shape)
  show Helpers.shapeGenerator gen (shape.map Int.ofNat) (.unsigned 32) s = _
  unfold Helpers.shapeGenerator
  rw [if_neg (by
    rw [List.any_eq_true]
    rintro ⟨d, hd, h⟩
    obtain ⟨x, -, rfl⟩ := List.mem_map.1 hd
    simp at h
    omega)]
  simp only [h1, h2]
  rw [if_pos (by rw [List.length_map, draw_length])]

theorem word_getD (shape : List Nat) (l : List Int) (idx : List Nat) :
    word ⟨shape, l.map (fun v => Helpers.normalizeValue v (.unsigned 32))⟩ idx =
      BitVec.ofInt 32 (l.getD (Helpers.flatIndex shape idx) 0) := by
  unfold word
  have h0 : (0 : Int) = Helpers.normalizeValue 0 (.unsigned 32) := by decide
  show BitVec.ofInt 32 ((l.map _).getD _ 0) = _
  conv_lhs => rw [h0]
  rw [List.getD_map, ofInt_normalize]

theorem encrypt_tape {d k logN : Nat} (s : Fin d → W) (rlweSk : RlweSecretKey k (2 ^ logN)) (b : Bool)
    (x : (Fin d → W) × W) (l : List ((Fin d → W) × W)) :
    Session.encrypt (d := d) b ⟨⟨32, s⟩, rlweSk⟩ tapeSource (tape (x :: l)) =
      .ok (lweSample s x + bitVector d b, tape l) := by
  have h1 : sample tapeSource.uniform [d] (tape (x :: l)) =
      .ok (⟨[d], (List.ofFn (fun i => ((x.1 i).toNat : Int))).map (fun v => Helpers.normalizeValue v (.unsigned 32))⟩,
        (l.flatMap (fun x => List.ofFn x.1), x.2 :: l.map Prod.snd)) := by
    rw [sample_eq, show ([d].foldl (fun a b => a * b) 1) = d by simp]
    have : tape (x :: l) = (List.ofFn x.1 ++ l.flatMap (fun x => List.ofFn x.1), x.2 :: l.map Prod.snd) := rfl
    rw [this, draw_uniform d (List.ofFn x.1) _ _ (List.length_ofFn), List.map_ofFn]
    rfl
  have h2 : sample tapeSource.roundedNormal [1] (l.flatMap (fun x => List.ofFn x.1), x.2 :: l.map Prod.snd) =
      .ok (⟨[1], [x.2.toInt].map (fun v => Helpers.normalizeValue v (.unsigned 32))⟩, tape l) := by
    rw [sample_eq]
    show Except.ok (_, _) = _
    have := draw_normal 1 [x.2] (l.flatMap (fun x => List.ofFn x.1)) (l.map Prod.snd) rfl
    simp only [List.singleton_append] at this
    rw [show [1].foldl (fun a b => a * b) 1 = 1 from rfl, this]
    rfl
  have hencode : Encoding.encode (if b then 1 else 0) Encoding.boolParams =
      .ok (if b then 0x10000000#32 else 0) := by cases b <;> decide
  have hw : (fun i : Fin d => word ⟨[d], (List.ofFn (fun i => ((x.1 i).toNat : Int))).map
      (fun v => Helpers.normalizeValue v (.unsigned 32))⟩ [i.val]) = x.1 := by
    funext i
    rw [word_getD, List.getD_eq_getElem _ _ (by simp [Helpers.flatIndex])]
    simp [Helpers.flatIndex]
  have he : word ⟨[1], [x.2.toInt].map (fun v => Helpers.normalizeValue v (.unsigned 32))⟩ [0] = x.2 := by
    rw [word_getD]
    simp [Helpers.flatIndex]
  have hc : Lwe.boolEncrypt b ⟨32, s⟩ x.1 x.2 = .ok (lweSample s x + bitVector d b) := by
    unfold Lwe.boolEncrypt
    simp only [hencode, bind, Except.bind, pure, Except.pure]
    congr 1
    unfold Lwe.jitEncrypt lweSample bitVector
    funext i
    refine Fin.lastCases ?_ (fun i => ?_) i
    · simp only [Fin.snoc_last, Pi.add_apply]
      show ∑ i, x.1 i * s i + _ + x.2 = _
      ring
    · simp only [Fin.snoc_castSucc, Pi.add_apply]
      exact (add_zero _).symm
  unfold Session.encrypt
  simp only [bind, StateT.bind, Except.bind, h1, h2, hw, he, hc]
  rfl

theorem oracle_tape {d k logN : Nat} (s : Fin d → W) (rlweSk : RlweSecretKey k (2 ^ logN))
    (choose : List (Fin (d + 1) → W) → Bool) (l : List ((Fin d → W) × W)) (hist : List (Fin (d + 1) → W)) :
    oracle (d := d) ⟨⟨32, s⟩, rlweSk⟩ tapeSource choose l.length hist (tape l) =
      .ok (simulate (fun h => bitVector d (choose h)) hist (l.map (lweSample s)), ([], [])) := by
  induction l generalizing hist with
  | nil => rfl
  | cons x l ih =>
    show (Session.encrypt (choose hist) _ tapeSource (tape (x :: l)) >>= fun r =>
      oracle _ tapeSource choose l.length (hist ++ [r.1]) r.2) = _
    rw [encrypt_tape]
    exact ih _

/-- The game is the attack on the LWE problem. -/
theorem encryptionGame_eq {d k logN : Nat} (κ : (Fin d → W) → ℝ) (χ : W → ℝ) (rlweSk : RlweSecretKey k (2 ^ logN))
    (choose : List (Fin (d + 1) → W) → Bool) (guess : List (Fin (d + 1) → W) → ℝ) (q : Nat) :
    encryptionGame κ χ rlweSk choose guess q = real κ (lweWeight χ) lweSample q (lweAttack choose guess) := by
  unfold encryptionGame real
  refine Finset.sum_congr rfl (fun s _ => ?_)
  congr 1
  refine expectIid_congr _ _ _ _ (fun l hl => ?_)
  subst hl
  rw [oracle_tape]
  rfl

/-- C96: whoever tells apart, after `q` encryptions of bits of their choice, the left bits from the right ones, tells LWE
samples from uniform vectors: the advantage is at most the sum of the advantages of two attacks on LWE. -/
theorem C96_encrypt {d k logN : Nat} (κ : (Fin d → W) → ℝ) (χ : W → ℝ) (rlweSk : RlweSecretKey k (2 ^ logN))
    (left right : List (Fin (d + 1) → W) → Bool) (guess : List (Fin (d + 1) → W) → ℝ) (q : Nat) :
    |encryptionGame κ χ rlweSk left guess q - encryptionGame κ χ rlweSk right guess q| ≤
      lweAdvantage κ χ q (lweAttack left guess) + lweAdvantage κ χ q (lweAttack right guess) := by
  rw [encryptionGame_eq, encryptionGame_eq]
  exact choice_le κ (lweWeight χ) (lweSample (d := d)) q guess (fun h => bitVector d (left h)) (fun h => bitVector d (right h))

/-- C96 in terms of a bound: if no attack on LWE with `q` samples has an advantage above `ε`, no attack on the encryption has
one above `2 ε`. -/
theorem C96_bound {d k logN : Nat} (κ : (Fin d → W) → ℝ) (χ : W → ℝ) (rlweSk : RlweSecretKey k (2 ^ logN)) (q : Nat) (ε : ℝ)
    (hε : ∀ attack : List (Fin (d + 1) → W) → ℝ, (∀ l, 0 ≤ attack l ∧ attack l ≤ 1) → lweAdvantage κ χ q attack ≤ ε)
    (left right : List (Fin (d + 1) → W) → Bool) (guess : List (Fin (d + 1) → W) → ℝ)
    (hg : ∀ l, 0 ≤ guess l ∧ guess l ≤ 1) :
    |encryptionGame κ χ rlweSk left guess q - encryptionGame κ χ rlweSk right guess q| ≤ 2 * ε := by
  refine (C96_encrypt κ χ rlweSk left right guess q).trans ?_
  have h1 := hε (lweAttack left guess) (fun l => hg _)
  have h2 := hε (lweAttack right guess) (fun l => hg _)
  linarith

/-- C96: the games are expectations: nothing raises. -/
theorem C96_total {d k logN : Nat} (κ : (Fin d → W) → ℝ) (hκ : ∑ s, κ s = 1) (χ : W → ℝ) (hχ : ∑ e, χ e = 1)
    (rlweSk : RlweSecretKey k (2 ^ logN)) (choose : List (Fin (d + 1) → W) → Bool) (q : Nat) :
    encryptionGame κ χ rlweSk choose (fun _ => 1) q = 1 := by
  rw [encryptionGame_eq]
  unfold real lweAttack
  rw [Finset.sum_congr rfl (fun s _ => by rw [expectIid_one (lweWeight χ) (by
    unfold lweWeight
    rw [Fintype.sum_prod_type]
    simp only [← Finset.mul_sum, hχ, mul_one, Finset.sum_const, Finset.card_univ, nsmul_eq_mul]
    exact mul_one_div_cancel (Nat.cast_ne_zero.2 Fintype.card_ne_zero)), mul_one])]
  exact hκ

theorem lweSample_bijective {d : Nat} (s : Fin d → W) : Function.Bijective (lweSample s) := by
  constructor
  · rintro ⟨a, e⟩ ⟨a', e'⟩ h
    have h1 : a = a' := by
      funext i
      have := congrFun h i.castSucc
      simpa only [lweSample, Fin.snoc_castSucc] using this
    subst h1
    have h2 := congrFun h (Fin.last d)
    simp only [lweSample, Fin.snoc_last] at h2
    rw [add_left_cancel h2]
  · intro c
    refine ⟨(fun i => c i.castSucc, c (Fin.last d) - ∑ i, c i.castSucc * s i), ?_⟩
    funext i
    refine Fin.lastCases ?_ (fun i => ?_) i
    · simp only [lweSample, Fin.snoc_last]; ring
    · simp only [lweSample, Fin.snoc_castSucc]

/-- C96, a case in which the LWE problem is provably hard: with uniform errors the ciphertexts say nothing at all. -/
theorem C96_uniform_errors {d k logN : Nat} (κ : (Fin d → W) → ℝ) (hκ : ∑ s, κ s = 1)
    (rlweSk : RlweSecretKey k (2 ^ logN)) (left right : List (Fin (d + 1) → W) → Bool)
    (guess : List (Fin (d + 1) → W) → ℝ) (q : Nat) :
    encryptionGame κ (fun _ => 1 / (Fintype.card W : ℝ)) rlweSk left guess q =
      encryptionGame κ (fun _ => 1 / (Fintype.card W : ℝ)) rlweSk right guess q := by
  have hw : (lweWeight (d := d) (fun _ => 1 / (Fintype.card W : ℝ))) = fun _ => 1 / (Fintype.card (Fin (d + 1) → W) : ℝ) := by
    funext x
    unfold lweWeight
    rw [Fintype.card_fun, Fintype.card_fun, Fintype.card_fin, Fintype.card_fin, pow_succ]
    push_cast
    rw [one_div_mul_one_div]
  have h := C96_encrypt κ (fun _ => 1 / (Fintype.card W : ℝ)) rlweSk left right guess q
  unfold lweAdvantage at h
  rw [hw, advantage_zero κ hκ lweSample lweSample_bijective, advantage_zero κ hκ lweSample lweSample_bijective, add_zero] at h
  exact sub_eq_zero.1 (abs_nonpos_iff.1 h)

/-! ### With the key-switching key -/

/-- The rows of a key-switching key, in order. -/
def rowsOf {n L m : Nat} (ksk : Fin n → Fin L → Fin (m + 1) → W) : List (Fin (m + 1) → W) :=
  List.ofFn (fun t : Fin (n * L) => ksk t.divNat t.modNat)

/-- The vector that is added to sample number `t` to encrypt level `t % L` of entry `t / L` of the key `z`; the level `l` has
weight `2^(32 - logBase * (l + 1))`. -/
def rowVector {n : Nat} (logBase L d : Nat) (z : Fin n → W) (t : Nat) : Fin (d + 1) → W :=
  Fin.snoc (α := fun _ => W) (fun _ => 0)
    (if h : t / L < n then z ⟨t / L, h⟩ * BitVec.ofNat 32 (2 ^ (32 - logBase * (t % L + 1))) else 0)

/-- The attacker with a key-switching key: the first `n * L` samples become its rows, the others encryptions. -/
def viewAttack {n d : Nat} (logBase L : Nat) (z : Fin n → W) (choose : List (Fin (d + 1) → W) → Bool)
    (guess : List (Fin (d + 1) → W) → ℝ) (samples : List (Fin (d + 1) → W)) : ℝ :=
  guess (simulate (fun hist => if hist.length < n * L then rowVector logBase L d z hist.length
    else bitVector d (choose hist)) [] samples)

/-- Expected guess of an attacker who sees the key-switching key for a key `z`, then `q` encryptions of bits that may depend
on all it has seen. -/
noncomputable def viewGame {n d k logN : Nat} (κ : (Fin d → W) → ℝ) (χ : W → ℝ) (rlweSk : RlweSecretKey k (2 ^ logN))
    (dp : Rgsw.DecompositionParameters) (z : Fin n → W) (choose : List (Fin (d + 1) → W) → Bool)
    (guess : List (Fin (d + 1) → W) → ℝ) (q : Nat) : ℝ :=
  ∑ s, κ s * expectIid (lweWeight (d := d) χ) (n * dp.levelCount + q) (fun l =>
    match (do let ksk ← genKeySwitchingKeyRandom dp tapeSource ⟨32, z⟩ ⟨32, s⟩
              oracle (d := d) ⟨⟨32, s⟩, rlweSk⟩ tapeSource choose q (rowsOf ksk)) (tape l) with
    | .ok (view, _) => guess view
    | .error _ => 0)

theorem simulate_append {G : Type} [Add G] (message : List G → G) (hist a b : List G) :
    simulate message hist (a ++ b) = simulate message (simulate message hist a) b := by
  induction a generalizing hist with
  | nil => rfl
  | cons x a ih => exact ih _

theorem simulate_rows {G : Type} [Add G] (message : List G → G) (m : Nat → G) (N : Nat)
    (h : ∀ hist : List G, hist.length < N → message hist = m hist.length) (xs hist : List G)
    (hN : hist.length + xs.length ≤ N) :
    simulate message hist xs = hist ++ xs.mapIdx (fun i x => x + m (hist.length + i)) := by
  induction xs generalizing hist with
  | nil => simp [simulate]
  | cons x xs ih =>
    rw [List.length_cons] at hN
    unfold simulate
    rw [ih _ (by rw [List.length_append, List.length_singleton]; omega), h hist (by omega), List.mapIdx_cons,
      List.length_append, List.length_singleton, List.append_assoc, Nat.add_zero]
    rw [List.singleton_append]
    refine congrArg (fun t => hist ++ (x + m hist.length) :: t) ?_
    refine congrArg (fun f => List.mapIdx f xs) ?_
    funext i y
    rw [Nat.add_assoc, Nat.add_comm 1 i]

theorem simulate_congr {G : Type} [Add G] (m1 m2 : List G → G) (N : Nat) (h : ∀ hist : List G, N ≤ hist.length → m1 hist = m2 hist)
    (xs hist : List G) (hN : N ≤ hist.length) : simulate m1 hist xs = simulate m2 hist xs := by
  induction xs generalizing hist with
  | nil => rfl
  | cons x xs ih =>
    unfold simulate
    rw [h hist hN]
    exact ih _ (by rw [List.length_append]; omega)

theorem flatMap_getD {d : Nat} (l : List ((Fin d → W) × W)) (t : Nat) (ht : t < l.length) (j : Fin d) :
    (l.flatMap (fun x => List.ofFn x.1)).getD (t * d + j.val) 0 = l[t].1 j := by
  induction l generalizing t with
  | nil => simp at ht
  | cons x l ih =>
    rw [List.flatMap_cons]
    cases t with
    | zero =>
      rw [List.getD_append _ _ _ _ (by simp)]
      simp
    | succ t =>
      rw [List.getD_append_right _ _ _ _ (by simp [Nat.succ_mul]; omega)]
      simp only [List.length_ofFn, List.getElem_cons_succ]
      rw [show (t + 1) * d + j.val - d = t * d + j.val by rw [Nat.succ_mul]; omega]
      exact ih t (by simpa using ht)

theorem length_flatMap_ofFn {d : Nat} (l : List ((Fin d → W) × W)) :
    (l.flatMap (fun x => List.ofFn x.1)).length = l.length * d := by
  induction l with
  | nil => simp
  | cons x l ih => rw [List.flatMap_cons, List.length_append, ih, List.length_ofFn, List.length_cons]; ring

theorem tape_append {d : Nat} (a b : List ((Fin d → W) × W)) :
    tape (a ++ b) = ((tape a).1 ++ (tape b).1, (tape a).2 ++ (tape b).2) := by
  unfold tape
  rw [List.flatMap_append, List.map_append]

theorem ksk_tape {n m : Nat} (dp : Rgsw.DecompositionParameters) (z : Fin n → W) (s : Fin m → W)
    (a b : List ((Fin m → W) × W)) (ha : a.length = n * dp.levelCount) :
    genKeySwitchingKeyRandom dp tapeSource ⟨32, z⟩ ⟨32, s⟩ (tape (a ++ b)) =
      .ok (fun i l => lweSample s (a[i.val * dp.levelCount + l.val]'(by
          rw [ha]
          have := i.isLt; have := l.isLt
          calc i.val * dp.levelCount + l.val < i.val * dp.levelCount + dp.levelCount := by omega
            _ = (i.val + 1) * dp.levelCount := by ring
            _ ≤ _ := Nat.mul_le_mul_right _ (by omega))) +
        rowVector dp.logBase dp.levelCount m z (i.val * dp.levelCount + l.val), tape b) := by
  have h1 : sample tapeSource.uniform [n, dp.levelCount, m] (tape (a ++ b)) =
      .ok (⟨[n, dp.levelCount, m], ((tape a).1.map (fun w => (w.toNat : Int))).map
        (fun v => Helpers.normalizeValue v (.unsigned 32))⟩, ((tape b).1, (tape a).2 ++ (tape b).2)) := by
    rw [sample_eq, tape_append, draw_uniform _ (tape a).1 _ _ (by
      show (a.flatMap _).length = _
      rw [length_flatMap_ofFn, ha]; simp)]
  have h2 : sample tapeSource.roundedNormal [n, dp.levelCount] ((tape b).1, (tape a).2 ++ (tape b).2) =
      .ok (⟨[n, dp.levelCount], ((tape a).2.map BitVec.toInt).map
        (fun v => Helpers.normalizeValue v (.unsigned 32))⟩, tape b) := by
    rw [sample_eq, draw_normal _ (tape a).2 _ _ (by
      show (a.map _).length = _
      rw [List.length_map, ha]; simp)]
  unfold genKeySwitchingKeyRandom
  simp only [bind, StateT.bind, Except.bind, h1, h2]
  show Except.ok (_, _) = _
  congr 2
  funext i l
  have hlt : i.val * dp.levelCount + l.val < a.length := by
    rw [ha]
    have := i.isLt; have := l.isLt
    calc i.val * dp.levelCount + l.val < i.val * dp.levelCount + dp.levelCount := by omega
      _ = (i.val + 1) * dp.levelCount := by ring
      _ ≤ _ := Nat.mul_le_mul_right _ (by omega)
  have hw : (fun j : Fin m => word ⟨[n, dp.levelCount, m], ((tape a).1.map (fun w => (w.toNat : Int))).map
      (fun v => Helpers.normalizeValue v (.unsigned 32))⟩ [i.val, l.val, j.val]) = (a[i.val * dp.levelCount + l.val]).1 := by
    funext j
    rw [word_getD, show (0 : Int) = ((0#32).toNat : Int) from rfl, List.getD_map]
    have hidx : Helpers.flatIndex [n, dp.levelCount, m] [i.val, l.val, j.val] =
        (i.val * dp.levelCount + l.val) * m + j.val := by
      simp [Helpers.flatIndex]; ring
    rw [hidx, show (tape a).1.getD ((i.val * dp.levelCount + l.val) * m + j.val) 0#32 = _ from flatMap_getD a _ hlt j]
    simp
  have he : word ⟨[n, dp.levelCount], ((tape a).2.map BitVec.toInt).map
      (fun v => Helpers.normalizeValue v (.unsigned 32))⟩ [i.val, l.val] = (a[i.val * dp.levelCount + l.val]).2 := by
    rw [word_getD, show (0 : Int) = (0#32).toInt from rfl, List.getD_map]
    have hidx : Helpers.flatIndex [n, dp.levelCount] [i.val, l.val] = i.val * dp.levelCount + l.val := by
      simp [Helpers.flatIndex]
    rw [hidx]
    show BitVec.ofInt 32 ((a.map Prod.snd).getD _ _).toInt = _
    rw [List.getD_eq_getElem _ _ (by rw [List.length_map]; exact hlt), List.getElem_map, BitVec.ofInt_toInt]
  unfold KeySwitch.genKey
  simp only
  rw [hw, he]
  unfold Lwe.jitEncrypt lweSample rowVector
  funext c
  refine Fin.lastCases ?_ (fun c => ?_) c
  · simp only [Fin.snoc_last, Pi.add_apply]
    have hL : 0 < dp.levelCount := lt_of_le_of_lt (Nat.zero_le _) l.isLt
    have hd : (i.val * dp.levelCount + l.val) / dp.levelCount = i.val := by
      rw [Nat.mul_comm, Nat.mul_add_div hL, Nat.div_eq_of_lt l.isLt, Nat.add_zero]
    have hm : (i.val * dp.levelCount + l.val) % dp.levelCount = l.val := by
      rw [Nat.mul_comm, Nat.mul_add_mod, Nat.mod_eq_of_lt l.isLt]
    rw [dif_pos (by rw [hd]; exact i.isLt)]
    have hz : z ⟨(i.val * dp.levelCount + l.val) / dp.levelCount, by rw [hd]; exact i.isLt⟩ = z i := by
      congr 1; exact Fin.ext hd
    rw [hz, hm, show 32 - dp.logBase * (l.val + 1) = 32 - (1 + l.val) * dp.logBase by ring_nf]
    unfold modLog
    rw [if_neg (by decide)]
    unfold Decomposition.recompositionSummands
    have hp : ∀ t : Nat, (BitVec.ofNat 32 (2 ^ t) : W) = 2 ^ t := fun t => by
      show ((2 ^ t : Nat) : W) = 2 ^ t
      push_cast
      rfl
    rw [Decomposition.shiftLeft_eq_mul, hp]
    show Lwe.dot _ _ + _ + _ = Lwe.dot _ _ + _ + _
    ring
  · simp only [Fin.snoc_castSucc, Pi.add_apply]
    exact (add_zero _).symm

theorem mapIdx_ofFn {n L m : Nat} (logBase : Nat) (z : Fin n → W) (s : Fin m → W) (a : List ((Fin m → W) × W)) (ha : a.length = n * L)
    (ksk : Fin n → Fin L → Fin (m + 1) → W)
    (h : ∀ (i : Fin n) (l : Fin L) (hlt : i.val * L + l.val < a.length),
      ksk i l = lweSample s a[i.val * L + l.val] + rowVector logBase L m z (i.val * L + l.val)) :
    rowsOf ksk = (a.map (lweSample s)).mapIdx (fun i x => x + rowVector logBase L m z (([] : List Nat).length + i)) := by
  apply List.ext_getElem
  · simp [rowsOf, ha]
  · intro t h1 h2
    have ht : t < n * L := by simpa [rowsOf] using h1
    have hL : 0 < L := by
      rcases Nat.eq_zero_or_pos L with h | h
      · subst h; simp at ht
      · exact h
    have hdm : t / L * L + t % L = t := by rw [Nat.mul_comm]; exact Nat.div_add_mod t L
    simp only [rowsOf, List.getElem_ofFn, List.getElem_mapIdx, List.getElem_map, List.length_nil, Nat.zero_add]
    rw [h _ _ (by show t / L * L + t % L < _; omega)]
    show lweSample s a[t / L * L + t % L] + rowVector logBase L m z (t / L * L + t % L) = _
    simp only [hdm]

theorem viewGame_eq {n d k logN : Nat} (κ : (Fin d → W) → ℝ) (χ : W → ℝ) (rlweSk : RlweSecretKey k (2 ^ logN))
    (dp : Rgsw.DecompositionParameters) (z : Fin n → W) (choose : List (Fin (d + 1) → W) → Bool)
    (guess : List (Fin (d + 1) → W) → ℝ) (q : Nat) :
    viewGame κ χ rlweSk dp z choose guess q =
      Game.real κ (lweWeight χ) lweSample (n * dp.levelCount + q)
        (viewAttack dp.logBase dp.levelCount z choose guess) := by
  unfold viewGame Game.real
  refine Finset.sum_congr rfl (fun s _ => ?_)
  congr 1
  refine expectIid_congr _ _ _ _ (fun l hl => ?_)
  obtain ⟨a, b, rfl, ha, hb⟩ : ∃ a b, l = a ++ b ∧ a.length = n * dp.levelCount ∧ b.length = q :=
    ⟨l.take (n * dp.levelCount), l.drop (n * dp.levelCount), (List.take_append_drop _ _).symm, by
      rw [List.length_take]; omega, by rw [List.length_drop]; omega⟩
  subst hb
  simp only [bind, StateT.bind, Except.bind, ksk_tape dp z s a b ha]
  rw [oracle_tape, mapIdx_ofFn dp.logBase z s a ha _ (fun i l hlt => rfl)]
  show guess _ = guess _
  have hr := simulate_rows (fun hist => if hist.length < n * dp.levelCount then
      rowVector dp.logBase dp.levelCount d z hist.length else bitVector d (choose hist))
    (rowVector dp.logBase dp.levelCount d z) (n * dp.levelCount) (fun hist h => if_pos h) (a.map (lweSample s)) []
    (by rw [List.length_nil, List.length_map, ha]; omega)
  rw [List.map_append, simulate_append, hr, List.nil_append]
  congr 1
  refine (simulate_congr _ _ (n * dp.levelCount) (fun hist h => if_neg (by omega)) _ _ ?_).symm
  rw [List.length_mapIdx, List.length_map, ha]

/-- C96 with the key-switching key: not even the key that is switched from can be told, nor the bits encrypted after the
attacker has seen the key-switching key. The number of samples is `n * levels + q`. -/
theorem C96_switching_key {n d k logN : Nat} (κ : (Fin d → W) → ℝ) (χ : W → ℝ) (rlweSk : RlweSecretKey k (2 ^ logN))
    (dp : Rgsw.DecompositionParameters) (z1 z2 : Fin n → W) (left right : List (Fin (d + 1) → W) → Bool)
    (guess : List (Fin (d + 1) → W) → ℝ) (q : Nat) :
    |viewGame κ χ rlweSk dp z1 left guess q - viewGame κ χ rlweSk dp z2 right guess q| ≤
      lweAdvantage κ χ (n * dp.levelCount + q) (viewAttack dp.logBase dp.levelCount z1 left guess) +
        lweAdvantage κ χ (n * dp.levelCount + q) (viewAttack dp.logBase dp.levelCount z2 right guess) := by
  rw [viewGame_eq, viewGame_eq]
  exact choice_le κ (lweWeight χ) (lweSample (d := d)) _ guess _ _

/-- C96: the game with the key-switching key is an expectation as well. -/
theorem C96_switching_key_total {n d k logN : Nat} (κ : (Fin d → W) → ℝ) (hκ : ∑ s, κ s = 1) (χ : W → ℝ) (hχ : ∑ e, χ e = 1)
    (rlweSk : RlweSecretKey k (2 ^ logN)) (dp : Rgsw.DecompositionParameters) (z : Fin n → W)
    (choose : List (Fin (d + 1) → W) → Bool) (q : Nat) :
    viewGame κ χ rlweSk dp z choose (fun _ => 1) q = 1 := by
  rw [viewGame_eq]
  unfold real viewAttack
  rw [Finset.sum_congr rfl (fun s _ => by rw [expectIid_one (lweWeight χ) (by
    unfold lweWeight
    rw [Fintype.sum_prod_type]
    simp only [← Finset.mul_sum, hχ, mul_one, Finset.sum_const, Finset.card_univ, nsmul_eq_mul]
    exact mul_one_div_cancel (Nat.cast_ne_zero.2 Fintype.card_ne_zero)), mul_one])]
  exact hκ

/-- The key of zeros with certainty and the error zero or one with probability one half each meet the conditions of
`C96_total`. -/
example : (∑ s : Fin 4 → W, if s = 0 then (1 : ℝ) else 0) = 1 ∧
    (∑ e : W, if e = 0 then (1 / 2 : ℝ) else if e = 1 then 1 / 2 else 0) = 1 := by
  constructor
  · simp
  · rw [Finset.sum_congr rfl (fun (e : W) _ => show (if e = 0 then (1 / 2 : ℝ) else if e = 1 then 1 / 2 else 0) =
      (if e = 0 then 1 / 2 else 0) + (if e = 1 then 1 / 2 else 0) by
        by_cases h : e = 0
        · subst h; simp
        · rw [if_neg h, if_neg h, zero_add]), Finset.sum_add_distrib]
    simp
    norm_num

end Verif.Props
