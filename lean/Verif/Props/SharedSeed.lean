import Verif.Props.Confidential

/-!
# Property C98: the two secret keys of a client are independent

They are when the two random sources are one object, or two that draw independently. Two pseudorandom sources with one seed,
which is how the README makes them, give keys one of which is the beginning of the other.
-/

namespace Verif.Props
open Verif.Arith Verif.Session Verif.Rlwe Verif.JaxiteBool

theorem draw_onFst {σ τ : Type} (g : σ → Int × σ) (n : Nat) (s : σ) (t : τ) :
    Helpers.draw (fun u : σ × τ => ((g u.1).1, ((g u.1).2, u.2))) n (s, t) =
      ((Helpers.draw g n s).1, ((Helpers.draw g n s).2, t)) := by
  induction n generalizing s with
  | zero => rfl
  | succ n ih =>
    unfold Helpers.draw
    simp only [ih]

theorem draw_onSnd {σ τ : Type} (g : τ → Int × τ) (n : Nat) (s : σ) (t : τ) :
    Helpers.draw (fun u : σ × τ => ((g u.2).1, (u.1, (g u.2).2))) n (s, t) =
      ((Helpers.draw g n t).1, (s, (Helpers.draw g n t).2)) := by
  induction n generalizing t with
  | zero => rfl
  | succ n ih =>
    unfold Helpers.draw
    simp only [ih]

theorem draw_prefix {σ : Type} (g : σ → Int × σ) (n m i : Nat) (s : σ) (hn : i < n) (hm : i < m) :
    (Helpers.draw g n s).1.getD i 0 = (Helpers.draw g m s).1.getD i 0 := by
  induction i generalizing n m s with
  | zero =>
    obtain ⟨n, rfl⟩ : ∃ n', n = n' + 1 := ⟨n - 1, by omega⟩
    obtain ⟨m, rfl⟩ : ∃ m', m = m' + 1 := ⟨m - 1, by omega⟩
    rfl
  | succ i ih =>
    obtain ⟨n, rfl⟩ : ∃ n', n = n' + 1 := ⟨n - 1, by omega⟩
    obtain ⟨m, rfl⟩ : ∃ m', m = m' + 1 := ⟨m - 1, by omega⟩
    exact ih n m _ (by omega) (by omega)

/-- The client keys in terms of the drawn lists. -/
theorem clientKeySet_eq {σ : Type} (p : BoolParameters) (hp : p.schemeParams.polynomialModulusDegree = 2 ^ p.schemeParams.logModDegree)
    (lweRng rlweRng : RandomSource σ) (s : σ) :
    clientKeySet p lweRng rlweRng s =
      let d1 := Helpers.draw lweRng.skUniform p.schemeParams.lweDimension s
      let d2 := Helpers.draw rlweRng.skUniform (p.schemeParams.rlweDimension * p.schemeParams.polynomialModulusDegree) d1.2
      .ok (⟨⟨p.schemeParams.logPlaintextModulus, fun i => BitVec.ofInt 32 (d1.1.getD i.val 0)⟩,
        ⟨p.schemeParams.logPlaintextModulus, fun i c => BitVec.ofInt 32
          (d2.1.getD (i.val * p.schemeParams.polynomialModulusDegree + c.val) 0)⟩⟩, d2.2) := by
  unfold clientKeySet
  rw [if_neg (by simpa using hp)]
  have h1 : ∀ s, lweGenKey p.schemeParams lweRng s = .ok (⟨p.schemeParams.logPlaintextModulus, fun i => BitVec.ofInt 32
      ((Helpers.draw lweRng.skUniform p.schemeParams.lweDimension s).1.getD i.val 0)⟩,
      (Helpers.draw lweRng.skUniform p.schemeParams.lweDimension s).2) := by
    intro s
    unfold lweGenKey
    simp only [bind, StateT.bind, Except.bind, sample_eq, List.foldl_cons, List.foldl_nil, one_mul]
    show Except.ok (_, _) = _
    congr 3
    funext i
    rw [word_getD]
    simp [Helpers.flatIndex]
  have h2 : ∀ s, rlweGenKey p.schemeParams rlweRng s = .ok (⟨p.schemeParams.logPlaintextModulus, fun i c => BitVec.ofInt 32
      ((Helpers.draw rlweRng.skUniform (p.schemeParams.rlweDimension * p.schemeParams.polynomialModulusDegree) s).1.getD
        (i.val * p.schemeParams.polynomialModulusDegree + c.val) 0)⟩,
      (Helpers.draw rlweRng.skUniform (p.schemeParams.rlweDimension * p.schemeParams.polynomialModulusDegree) s).2) := by
    intro s
    unfold rlweGenKey
    simp only [bind, StateT.bind, Except.bind, sample_eq, List.foldl_cons, List.foldl_nil, one_mul]
    show Except.ok (_, _) = _
    congr 3
    funext i c
    rw [word_getD]
    simp [Helpers.flatIndex]
  simp only [bind, StateT.bind, Except.bind, h1, h2, pure, StateT.pure, Except.pure]

/-- A bit as the word that a secret key contains. -/
def bitWord (b : Bool) : W := if b then 1 else 0

/-- Fair coins: each draw of a key bit takes the next one of the list. Only the bits of keys are drawn from it. -/
def coinSource : RandomSource (List Bool) :=
  { uniform := fun s => (0, s)
    roundedNormal := fun s => (0, s)
    skUniform := fun s => match s with
      | [] => (0, [])
      | b :: r => (if b then 1 else 0, r) }

theorem draw_coins (l r : List Bool) :
    Helpers.draw coinSource.skUniform l.length (l ++ r) = (l.map fun b => if b then (1 : Int) else 0, r) := by
  induction l with
  | nil => rfl
  | cons b l ih =>
    simp only [List.length_cons, List.cons_append, List.map_cons]
    unfold Helpers.draw
    have h : coinSource.skUniform (b :: (l ++ r)) = (if b then 1 else 0, l ++ r) := rfl
    simp only [h, ih]

theorem coin_getD (l : List Bool) (i : Nat) :
    BitVec.ofInt 32 ((l.map fun b => if b then (1 : Int) else 0).getD i 0) = bitWord (l.getD i false) := by
  induction l generalizing i with
  | nil => rfl
  | cons b l ih =>
    cases i with
    | zero => cases b <;> rfl
    | succ i => simpa using ih i

/-- The coefficients of an array of polynomials one after the other. -/
def flatBits {k n : Nat} (b : Fin k → Fin n → Bool) : List Bool := List.ofFn fun i : Fin (k * n) => b i.divNat i.modNat

theorem flatBits_length {k n : Nat} (b : Fin k → Fin n → Bool) : (flatBits b).length = k * n := by simp [flatBits]

theorem flatBits_getD {k n : Nat} (b : Fin k → Fin n → Bool) (i : Fin k) (c : Fin n) :
    (flatBits b).getD (i.val * n + c.val) false = b i c := by
  have hn : 0 < n := lt_of_le_of_lt (Nat.zero_le _) c.2
  have h : i.val * n + c.val < k * n := by
    calc i.val * n + c.val < i.val * n + n := by omega
      _ = (i.val + 1) * n := by ring
      _ ≤ k * n := Nat.mul_le_mul_right n i.2
  unfold flatBits
  rw [List.getD_eq_getElem _ _ (by simpa using h), List.getElem_ofFn]
  congr 1
  · apply Fin.ext
    simp only [Fin.divNat, Fin.val_mk]
    rw [Nat.add_comm, Nat.add_mul_div_right _ _ hn, Nat.div_eq_of_lt c.2, Nat.zero_add]
  · apply Fin.ext
    simp only [Fin.modNat, Fin.val_mk]
    rw [Nat.add_comm, Nat.add_mul_mod_self_right, Nat.mod_eq_of_lt c.2]

/-- C98. **One source for both keys**: whichever bits `a` and `b` the source yields, one after the other, the client's keys
consist of exactly these bits. So every pair of binary keys comes from one sequence of bits and no other: fair coins give each
pair the same probability. -/
theorem C98_one_source_partial (p : BoolParameters)
    (hp : p.schemeParams.polynomialModulusDegree = 2 ^ p.schemeParams.logModDegree)
    (a : Fin p.schemeParams.lweDimension → Bool)
    (b : Fin p.schemeParams.rlweDimension → Fin (2 ^ p.schemeParams.logModDegree) → Bool) (rest : List Bool) :
    clientKeySet p coinSource coinSource (List.ofFn a ++ (flatBits b ++ rest)) =
      .ok (⟨⟨p.schemeParams.logPlaintextModulus, fun i => bitWord (a i)⟩,
        ⟨p.schemeParams.logPlaintextModulus, fun i c => bitWord (b i c)⟩⟩, rest) := by
  rw [clientKeySet_eq p hp]
  have h1 := draw_coins (List.ofFn a) (flatBits b ++ rest)
  rw [List.length_ofFn] at h1
  have h2 := draw_coins (flatBits b) rest
  rw [flatBits_length] at h2
  simp only [hp, h1, h2, coin_getD, flatBits_getD]
  simp

/-- C98. **Two sources that draw independently** give the same: the first yields the bits of the LWE key, the second those of
the RLWE key, and the keys consist of exactly these bits. -/
theorem C98_two_sources_partial (p : BoolParameters)
    (hp : p.schemeParams.polynomialModulusDegree = 2 ^ p.schemeParams.logModDegree)
    (a : Fin p.schemeParams.lweDimension → Bool)
    (b : Fin p.schemeParams.rlweDimension → Fin (2 ^ p.schemeParams.logModDegree) → Bool) (rest₁ rest₂ : List Bool) :
    clientKeySet p coinSource.onFst coinSource.onSnd (List.ofFn a ++ rest₁, flatBits b ++ rest₂) =
      .ok (⟨⟨p.schemeParams.logPlaintextModulus, fun i => bitWord (a i)⟩,
        ⟨p.schemeParams.logPlaintextModulus, fun i c => bitWord (b i c)⟩⟩, (rest₁, rest₂)) := by
  rw [clientKeySet_eq p hp]
  have h1 := draw_coins (List.ofFn a) rest₁
  rw [List.length_ofFn] at h1
  have h2 := draw_coins (flatBits b) rest₂
  rw [flatBits_length] at h2
  simp only [RandomSource.onFst, RandomSource.onSnd, draw_onFst, draw_onSnd, hp, h1, h2, coin_getD, flatBits_getD]
  simp

/-- The words of keys tell the bits apart. -/
theorem bitWord_injective : Function.Injective bitWord := by
  intro a b h
  revert h
  cases a <;> cases b <;> decide

/-- C98 fails for **two pseudorandom sources with one seed** (the README makes them so: `seed=1` for both), whatever the
generator of Python, its seed, the bounds and the deviations: the LWE key is the beginning of the flattened RLWE key, that is,
of the very key that the key-switching key encrypts under the LWE key. -/
theorem C98_same_seed {σ : Type} (randint : Int → Int → σ → Int × σ) (normal : Int → σ → Int × σ)
    (bounds₁ bounds₂ : Int × Int) (std₁ std₂ : Int) (seed : σ) (p : BoolParameters)
    (cks : ClientKeySet p.schemeParams.lweDimension p.schemeParams.rlweDimension p.schemeParams.logModDegree) (s' : σ × σ)
    (h : clientKeySet p (pythonSource randint normal bounds₁ std₁).onFst (pythonSource randint normal bounds₂ std₂).onSnd
      (seed, seed) = .ok (cks, s'))
    (i : Fin p.schemeParams.lweDimension) (j : Fin (p.schemeParams.rlweDimension * 2 ^ p.schemeParams.logModDegree))
    (hij : i.val = j.val) :
    cks.lweSk.keyData i = (flattenKey cks.rlweSk).keyData j := by
  by_cases hp : p.schemeParams.polynomialModulusDegree = 2 ^ p.schemeParams.logModDegree
  · rw [clientKeySet_eq p hp] at h
    simp only [RandomSource.onFst, RandomSource.onSnd, draw_onFst, draw_onSnd, hp] at h
    injection h with h
    injection h with h h'
    subst h
    simp only [flattenKey]
    have e : j.divNat.val * 2 ^ p.schemeParams.logModDegree + j.modNat.val = j.val := by
      simp only [Fin.divNat, Fin.modNat, Fin.val_mk]
      exact Nat.div_add_mod' _ _
    rw [e, hij]
    congr 1
    exact draw_prefix _ _ _ _ _ (by rw [← hij]; exact i.2) j.2
  · unfold clientKeySet at h
    rw [if_pos hp] at h
    exact absurd h (by simp [bind, StateT.bind, throw, throwThe, MonadExceptOf.throw, StateT.lift, Except.bind])

/-- C98 fails: with the parameters for 128 bit security there is a pair of binary keys, possible under independent draws by
`C98_two_sources_partial`, that no seed and no generator gives when the two sources have one seed. -/
theorem C98_same_seed_unreachable :
    let p := getParamsFor128BitSecurity
    ∃ (a : Fin p.schemeParams.lweDimension → Bool)
      (b : Fin p.schemeParams.rlweDimension → Fin (2 ^ p.schemeParams.logModDegree) → Bool),
      ∀ {σ : Type} (randint : Int → Int → σ → Int × σ) (normal : Int → σ → Int × σ) (seed : σ) (cks s'),
      clientKeySet p (pythonSource randint normal (0, 2 ^ 32 - 1) (2 ^ 14)).onFst
        (pythonSource randint normal (0, 2 ^ 32 - 1) 256).onSnd (seed, seed) = .ok (cks, s') →
      ¬ ((∀ i, cks.lweSk.keyData i = bitWord (a i)) ∧ ∀ i c, cks.rlweSk.data i c = bitWord (b i c)) := by
  intro p
  refine ⟨fun _ => true, fun _ _ => false, fun randint normal seed cks s' h ⟨h1, h2⟩ => ?_⟩
  have hl : 0 < p.schemeParams.lweDimension := by decide
  have hk : 0 < p.schemeParams.rlweDimension * 2 ^ p.schemeParams.logModDegree := Nat.mul_pos (by decide) (Nat.two_pow_pos _)
  have := C98_same_seed randint normal _ _ _ _ seed p cks s' h ⟨0, hl⟩ ⟨0, hk⟩ rfl
  rw [h1] at this
  have e : (flattenKey cks.rlweSk).keyData ⟨0, hk⟩ = bitWord false := h2 _ _
  rw [e] at this
  exact Bool.noConfusion (bitWord_injective this)

/-- The hypothesis on the degree (`C98_one_source_partial`, `C98_two_sources_partial`) holds for both shipped parameter sets, whose LWE dimension is at most that of the flattened
RLWE key, so that under one seed the whole LWE key is part of the other. -/
example : (∀ p ∈ [getParamsFor128BitSecurity, getParamsForTest],
    p.schemeParams.polynomialModulusDegree = 2 ^ p.schemeParams.logModDegree ∧
    p.schemeParams.lweDimension ≤ p.schemeParams.rlweDimension * p.schemeParams.polynomialModulusDegree) := by
  decide +kernel

/-- With the same seed the key set is made without an error (so `C98_same_seed` is not about failures), here for a generator
that counts. -/
example : ∃ cks s', clientKeySet getParamsForTest
    (pythonSource (fun lo hi (n : Nat) => (lo + n % (hi - lo + 1), n + 1)) (fun _ n => (0, n)) (0, 2 ^ 32 - 1) 1).onFst
    (pythonSource (fun lo hi (n : Nat) => (lo + n % (hi - lo + 1), n + 1)) (fun _ n => (0, n)) (0, 2 ^ 32 - 1) 1).onSnd
    (7, 7) = .ok (cks, s') ∧ cks.lweSk.keyData ⟨0, by decide⟩ = 1 ∧ cks.lweSk.keyData ⟨1, by decide⟩ = 0 := by
  rw [clientKeySet_eq _ (by decide +kernel)]
  exact ⟨_, _, rfl, by decide +kernel, by decide +kernel⟩

end Verif.Props
