import Verif.Lemmas.GamePk
import Verif.Props.CkksFloat

/-!
# Property C97: CKKS encryptions are as hard to tell apart as ring-LWE samples are to tell from uniform pairs
-/

namespace Verif.Props
open Verif.Game Verif.Helpers Verif.CkksKeys Verif.CkksSession Verif.Slots Verif.Barrett

/-- Polynomials modulo `X^N + 1`, one for every limb. -/
abbrev LimbRing (k : Nat) (ms : List Nat) : Type := ∀ i : Fin ms.length, Rq k (ms.getD i 0)

/-- The ring element of a list of integer coefficients. -/
noncomputable def limbPoly (k : Nat) (ms : List Nat) (c : Nat → Int) : LimbRing k ms := fun i => polyOf k (ms.getD i 0) c

/-- The ring element with the given slots. -/
noncomputable def limbView (k : Nat) (ms : List Nat) (M : Mat) : LimbRing k ms := fun i => ringOf k (ms.getD i 0) (M i)

/-- Draws that are read from lists: `choice`, `randrange`, `normalvariate`, `sample`. -/
structure Tape where
  choice : List Int
  uniform : List Int
  normal : List Int
  sample : List (List Nat)

/-- One tape after the other. -/
def Tape.append (s t : Tape) : Tape := ⟨s.choice ++ t.choice, s.uniform ++ t.uniform, s.normal ++ t.normal, s.sample ++ t.sample⟩

/-- A generator that reads its draws from a tape. -/
def tapeRng : Rng Tape :=
  { normal := fun t => (t.normal.headD 0, { t with normal := t.normal.tail })
    choice := fun _ t => (t.choice.headD 0, { t with choice := t.choice.tail })
    randrange := fun _ t => (t.uniform.headD 0, { t with uniform := t.uniform.tail })
    sample := fun _ _ t => (t.sample.headD [], { t with sample := t.sample.tail }) }

/-- The first `2^k` values. -/
def coeffList (k : Nat) (c : Nat → Int) : List Int := List.ofFn (fun i : Fin (2 ^ k) => c i)

/-- The coefficients of a ring element, limb by limb. -/
noncomputable def maskList (k : Nat) (ms : List Nat) (a : LimbRing k ms) : List Int :=
  (List.finRange ms.length).flatMap (fun i => List.ofFn (fun p : Fin (2 ^ k) => ((Nega.coeffs (a i) p).val : Int)))

/-- The draws of the public key after those of the secret key. -/
noncomputable def keyTape {E : Type} (k : Nat) (ms : List Nat) (err : E → Nat → Int) (x : LimbRing k ms × E) : Tape :=
  ⟨[], maskList k ms x.1, coeffList k (err x.2), []⟩

/-- The draws of encryptions. -/
def textTape {V E : Type} (k : Nat) (sec : V → Nat → Int) (err : E → Nat → Int) (l : List (V × E × E)) : Tape :=
  ⟨l.flatMap (fun x => coeffList k (sec x.1)), [],
   l.flatMap (fun x => coeffList k (err x.2.1) ++ coeffList k (err x.2.2)), []⟩

/-- `q` calls of `encrypt`; every plaintext may depend on the ciphertexts before. -/
noncomputable def ckksOracle {σ : Type} (rng : Rng σ) (k : Nat) (ms : List Nat) (pk : PublicKey)
    (choose : List (LimbRing k ms × LimbRing k ms) → Mat) :
    Nat → List (LimbRing k ms × LimbRing k ms) → CkksSession.Draw σ (List (LimbRing k ms × LimbRing k ms))
  | 0, hist => pure hist
  | q + 1, hist => do
    let ct ← encryptRandom rng (2 ^ k) pk { data := choose hist, moduli := ms }
    ckksOracle rng k ms pk choose q (hist ++ [(limbView k ms ct.c0, limbView k ms ct.c1)])

/-- What an attacker sees: the public key, then the ciphertexts. -/
noncomputable def ckksView {σ : Type} (rng : Rng σ) (k : Nat) (ms : List Nat) (hw : Option Nat)
    (choose : LimbRing k ms × LimbRing k ms → List (LimbRing k ms × LimbRing k ms) → Mat) (q : Nat) :
    CkksSession.Draw σ ((LimbRing k ms × LimbRing k ms) × List (LimbRing k ms × LimbRing k ms)) := do
  let keys ← keygenRandom rng (2 ^ k) ms hw
  let pk := (limbView k ms keys.1.b, limbView k ms keys.1.a)
  let cts ← ckksOracle rng k ms keys.1 (choose pk) q []
  pure (pk, cts)

/-- Expected guess of an attacker who sees the public key and `q` encryptions: secret keys with probability `κ'`, `v` with
probability `κ`, errors with probability `χ`, the mask of the public key uniform, all draws independent. -/
noncomputable def ckksGame {K V E : Type} [Fintype K] [Fintype V] [Fintype E] (k : Nat) (ms : List Nat) [Fintype (LimbRing k ms)]
    (hw : Option Nat) (κ' : K → ℝ) (κ : V → ℝ) (χ : E → ℝ) (secretTape : K → Tape) (sec : V → Nat → Int)
    (err : E → Nat → Int) (choose : LimbRing k ms × LimbRing k ms → List (LimbRing k ms × LimbRing k ms) → Mat)
    (guess : LimbRing k ms × LimbRing k ms → List (LimbRing k ms × LimbRing k ms) → ℝ) (q : Nat) : ℝ :=
  ∑ s, κ' s * ∑ x : LimbRing k ms × E, ringWeight (LimbRing k ms) χ x * expectIid (encWeight κ χ) q (fun l =>
    match ckksView tapeRng k ms hw choose q ((secretTape s).append ((keyTape k ms err x).append (textTape k sec err l))) with
    | .ok (view, _) => guess view.1 view.2
    | .error _ => 0)

variable {k : Nat} {ms : List Nat}

theorem draw_tape_normal (l : List Int) (n : Nat) (h : l.length = n) (t : Tape) :
    draw tapeRng.normal n { t with normal := l ++ t.normal } = (l, t) := by
  induction l generalizing n with
  | nil => subst h; rfl
  | cons w l ih =>
    subst h
    unfold draw
    have := ih l.length rfl
    simp only [List.length_cons, tapeRng, List.cons_append, List.headD_cons, List.tail_cons] at this ⊢
    rw [this]

theorem draw_tape_choice (xs : List Int) (l : List Int) (n : Nat) (h : l.length = n) (t : Tape) :
    draw (tapeRng.choice xs) n { t with choice := l ++ t.choice } = (l, t) := by
  induction l generalizing n with
  | nil => subst h; rfl
  | cons w l ih =>
    subst h
    unfold draw
    have := ih l.length rfl
    simp only [List.length_cons, tapeRng, List.cons_append, List.headD_cons, List.tail_cons] at this ⊢
    rw [this]

theorem draw_tape_uniform (b : Nat) (l : List Int) (n : Nat) (h : l.length = n) (t : Tape) :
    draw (tapeRng.randrange b) n { t with uniform := l ++ t.uniform } = (l, t) := by
  induction l generalizing n with
  | nil => subst h; rfl
  | cons w l ih =>
    subst h
    unfold draw
    have := ih l.length rfl
    simp only [List.length_cons, tapeRng, List.cons_append, List.headD_cons, List.tail_cons] at this ⊢
    rw [this]

/-- The drawn coefficients. -/
def cut (k : Nat) (c : Nat → Int) : Nat → Int := fun p => (coeffList k c).getD p 0

theorem cut_eq (c : Nat → Int) (p : Nat) (hp : p < 2 ^ k) : cut k c p = c p := by
  unfold cut coeffList
  rw [List.getD_eq_getElem _ _ (by simpa using hp)]
  simp

theorem polyOf_cut (q : Nat) (c : Nat → Int) : polyOf k q (cut k c) = polyOf k q c :=
  polyOf_congr (fun p hp => by rw [cut_eq c p hp])

theorem gaussian_tape (c : Nat → Int) (t : Tape) :
    gaussianCoeffs tapeRng (2 ^ k) { t with normal := coeffList k c ++ t.normal } = .ok (cut k c, t) := by
  unfold gaussianCoeffs
  rw [draw_tape_normal _ _ (by simp [coeffList])]
  rfl

theorem ternary_tape (c : Nat → Int) (t : Tape) :
    ternaryCoeffs tapeRng (2 ^ k) { t with choice := coeffList k c ++ t.choice } = .ok (cut k c, t) := by
  unfold ternaryCoeffs
  rw [draw_tape_choice _ _ _ (by simp [coeffList])]
  rfl

theorem uniformCols_tape (n : Nat) (qs : List Nat) (hq : ∀ q ∈ qs, q ≠ 0) (cols : List (List Int)) (hl : cols.length = qs.length)
    (hc : ∀ c ∈ cols, c.length = n) (t : Tape) :
    uniformCols tapeRng n qs { t with uniform := cols.flatten ++ t.uniform } = .ok (cols, t) := by
  induction qs generalizing cols with
  | nil =>
    obtain rfl : cols = [] := List.length_eq_zero_iff.1 hl
    rfl
  | cons q qs ih =>
    match cols, hl with
    | c :: cols, hl =>
      unfold uniformCols
      rw [if_neg (fun h => hq q List.mem_cons_self h.1)]
      simp only [List.flatten_cons, List.append_assoc]
      have h1 := draw_tape_uniform q c n (hc c List.mem_cons_self) { t with uniform := cols.flatten ++ t.uniform }
      have h2 := ih (fun q hq' => hq q (List.mem_cons_of_mem _ hq')) cols (by simpa using hl)
        (fun c hc' => hc c (List.mem_cons_of_mem _ hc'))
      simp only at h1
      simp only [bind, StateT.bind, Except.bind, h1, h2]
      rfl

theorem maskList_flatten (a : LimbRing k ms) : maskList k ms a =
    ((List.finRange ms.length).map (fun i => List.ofFn (fun p : Fin (2 ^ k) => ((Nega.coeffs (a i) p).val : Int)))).flatten := by
  unfold maskList
  rw [List.flatMap_def]

theorem uniform_tape (h : Moduli k ms) (a : LimbRing k ms) (t : Tape) :
    ∃ A, genUniformPoly tapeRng (2 ^ k) ms { t with uniform := maskList k ms a ++ t.uniform } = .ok (A, t) ∧
      ∀ i : Fin ms.length, polyOf k (ms.getD i 0) (fun p => (A i p : Int)) = a i := by
  have h1 := uniformCols_tape (2 ^ k) ms (fun q hq => (moduli_pos h q hq).ne')
    ((List.finRange ms.length).map (fun i => List.ofFn (fun p : Fin (2 ^ k) => ((Nega.coeffs (a i) p).val : Int))))
    (by simp) (by
      intro c hc
      obtain ⟨i, -, rfl⟩ := List.mem_map.1 hc
      simp) t
  rw [← maskList_flatten] at h1
  unfold genUniformPoly
  simp only [bind, StateT.bind, Except.bind, h1]
  refine ⟨_, rfl, ?_⟩
  intro i
  have := fact (h.at i.isLt).1
  have : NeZero (ms.getD i 0) := ⟨(h.at i.isLt).1.prime.ne_zero⟩
  conv_rhs => rw [← Nega.ev_coeffs (by positivity) (a i)]
  unfold polyOf
  congr 1
  funext p
  have hcol : ((List.finRange ms.length).map (fun i => List.ofFn (fun p : Fin (2 ^ k) =>
      ((Nega.coeffs (a i) p).val : Int)))).getD i [] = List.ofFn (fun p : Fin (2 ^ k) => ((Nega.coeffs (a i) p).val : Int)) := by
    rw [List.getD_eq_getElem _ _ (by simp), List.getElem_map]
    congr 1
    funext p
    rw [List.getElem_finRange]
    rfl
  have hget : ∀ f : Fin (2 ^ k) → Int, (List.ofFn f).getD p.val 0 = f p := fun f => by
    rw [List.getD_eq_getElem _ _ (by simp)]
    simp
  rw [hcol]
  simp only [hget, Int.toNat_natCast, Int.cast_natCast]
  exact ZMod.natCast_zmod_val _

/-- The draws of the secret key. -/
def secretDraw (k : Nat) (hw : Option Nat) : CkksSession.Draw Tape (Nat → Int) :=
  match hw with
  | some w => sparseCoeffs tapeRng (2 ^ k) w
  | none => ternaryCoeffs tapeRng (2 ^ k)

/-- The key generator on a tape. -/
theorem keygen_tape {E : Type} (h : Moduli k ms) (hw : Option Nat) (err : E → Nat → Int) (sk : Nat → Int) (st : Tape)
    (x : LimbRing k ms × E) (t : Tape)
    (hsk : ∀ t', secretDraw k hw (st.append t') = .ok (sk, t')) :
    ∃ keys, keygenRandom tapeRng (2 ^ k) ms hw (st.append ((keyTape k ms err x).append t)) = .ok (keys, t) ∧
      keys.1.moduli = ms ∧ Reduced k ms keys.1.b ∧ Reduced k ms keys.1.a ∧
      limbView k ms keys.1.a = x.1 ∧ limbView k ms keys.1.b = limbPoly k ms (err x.2) - x.1 * limbPoly k ms sk := by
  obtain ⟨A, hA, hA'⟩ := uniform_tape h x.1 { t with normal := coeffList k (err x.2) ++ t.normal }
  obtain ⟨pk, sk', k1, k2, -, k4, k5, -, k7⟩ := keygen_spec k ms h sk (cut k (err x.2)) A
  have hE := gaussian_tape (k := k) (err x.2) t
  refine ⟨(pk, sk'), ?_, k2, k4, k5, ?_, ?_⟩
  · have h1 := hsk ((keyTape k ms err x).append t)
    unfold keygenRandom
    have e2 : (keyTape k ms err x).append t =
        { t with normal := coeffList k (err x.2) ++ t.normal, uniform := maskList k ms x.1 ++ t.uniform } := rfl
    cases hw with
    | none =>
      simp only [secretDraw] at h1 ⊢
      rw [bindOk _ _ _ _ _ h1, e2, bindOk _ _ _ _ _ hA, bindOk _ _ _ _ _ hE]; exact ofExceptOk _ _ k1 _
    | some w =>
      simp only [secretDraw] at h1 ⊢
      rw [bindOk _ _ _ _ _ h1, e2, bindOk _ _ _ _ _ hA, bindOk _ _ _ _ _ hE]; exact ofExceptOk _ _ k1 _
  · funext i
    exact (k7 i i.isLt).2.1.trans (hA' i)
  · funext i
    show ringOf k (ms.getD i 0) (pk.b i) = polyOf k (ms.getD i 0) (err x.2) - x.1 i * polyOf k (ms.getD i 0) sk
    rw [(k7 i i.isLt).2.2, (k7 i i.isLt).2.1, hA' i, polyOf_cut]

/-- Encryption over all moduli of the key. -/
theorem encrypt_spec (h : Moduli k ms) (pk : PublicKey) (hm : pk.moduli = ms) (hb : Reduced k ms pk.b) (ha : Reduced k ms pk.a)
    (m : Mat) (hM : ∀ i p, m i p < 2 ^ 63) (v e0 e1 : Nat → Int) :
    ∃ ct, encrypt (2 ^ k) pk { data := m, moduli := ms } v e0 e1 = .ok ct ∧ ct.moduli = ms ∧
      Reduced k ms ct.c0 ∧ Reduced k ms ct.c1 ∧
      limbView k ms ct.c0 = limbPoly k ms v * limbView k ms pk.b + limbPoly k ms e0 + limbView k ms m ∧
      limbView k ms ct.c1 = limbPoly k ms v * limbView k ms pk.a + limbPoly k ms e1 := by
  obtain ⟨V, v1, v2, v3⟩ := nttMat_ringOf h (residues ms v)
  obtain ⟨E0, e01, e02, e03⟩ := nttMat_ringOf h (residues ms e0)
  obtain ⟨E1, e11, e12, e13⟩ := nttMat_ringOf h (residues ms e1)
  have hpre : ms = pk.moduli.take ms.length := by rw [hm, List.take_length]
  unfold encrypt
  simp only
  rw [if_neg (by simpa using hpre)]
  simp only [v1, e01, e11, bind, Except.bind, pure, Except.pure]
  have hred : ∀ i, i < ms.length → ∀ x : Nat, x % ms.getD i 0 % 2 ^ 32 < ms.getD i 0 := by
    intro i hi x
    obtain ⟨hp, hlt⟩ := h.at hi
    have := Nat.mod_lt x hp.prime.pos
    rw [Nat.mod_eq_of_lt (by omega)]; exact this
  refine ⟨_, rfl, rfl, fun i hi p _ => hred i hi _, fun i hi p _ => hred i hi _, ?_, ?_⟩
  · funext i
    obtain ⟨hp, hlt⟩ := h.at i.isLt
    have hq0 := hp.prime.pos
    have hV := v3 i i.isLt
    rw [polyOf_residues h v i.isLt] at hV
    have hE0 := e03 i i.isLt
    rw [polyOf_residues h e0 i.isLt] at hE0
    show ringOf k (ms.getD i 0) _ = polyOf k (ms.getD i 0) v * ringOf k (ms.getD i 0) (pk.b i) + polyOf k (ms.getD i 0) e0 +
      ringOf k (ms.getD i 0) (m i)
    rw [← hV, ← hE0, ringOf_eq_iff hp]
    intro p hp'
    rw [map_add, map_add, map_mul, slot_ringOf hp _ p hp', slot_ringOf hp _ p hp', slot_ringOf hp _ p hp',
      slot_ringOf hp _ p hp']
    have b1 := v2 i i.isLt p hp'
    have b2 := hb i i.isLt p hp'
    have b3 := e02 i i.isLt p hp'
    have b4 := hM i p
    simp only
    rw [mul64_eq (by omega) (by omega)]
    have b5 := Nat.mod_lt (V i p * pk.b i p) hq0
    have e1 : add64 (add64 (V i p * pk.b i p % ms.getD i 0) (E0 i p)) (m i p) =
        V i p * pk.b i p % ms.getD i 0 + E0 i p + m i p := by unfold add64; omega
    rw [e1]
    have b6 := Nat.mod_lt (V i p * pk.b i p % ms.getD i 0 + E0 i p + m i p) hq0
    rw [Nat.mod_eq_of_lt (by omega), ZMod.natCast_mod]
    simp only [Nat.cast_add, Nat.cast_mul, ZMod.natCast_mod]
  · funext i
    obtain ⟨hp, hlt⟩ := h.at i.isLt
    have hq0 := hp.prime.pos
    have hV := v3 i i.isLt
    rw [polyOf_residues h v i.isLt] at hV
    have hE1 := e13 i i.isLt
    rw [polyOf_residues h e1 i.isLt] at hE1
    show ringOf k (ms.getD i 0) _ = polyOf k (ms.getD i 0) v * ringOf k (ms.getD i 0) (pk.a i) + polyOf k (ms.getD i 0) e1
    rw [← hV, ← hE1, ringOf_eq_iff hp]
    intro p hp'
    rw [map_add, map_mul, slot_ringOf hp _ p hp', slot_ringOf hp _ p hp', slot_ringOf hp _ p hp']
    have b1 := v2 i i.isLt p hp'
    have b2 := ha i i.isLt p hp'
    have b3 := e12 i i.isLt p hp'
    simp only
    rw [mul64_eq (by omega) (by omega)]
    have b5 := Nat.mod_lt (V i p * pk.a i p) hq0
    have e1 : add64 (V i p * pk.a i p % ms.getD i 0) (E1 i p) =
        V i p * pk.a i p % ms.getD i 0 + E1 i p := by unfold add64; omega
    rw [e1]
    have b6 := Nat.mod_lt (V i p * pk.a i p % ms.getD i 0 + E1 i p) hq0
    rw [Nat.mod_eq_of_lt (by omega), ZMod.natCast_mod]
    simp only [Nat.cast_add, Nat.cast_mul, ZMod.natCast_mod]

theorem limbPoly_cut (c : Nat → Int) : limbPoly k ms (cut k c) = limbPoly k ms c := by
  funext i
  exact polyOf_cut _ c

theorem encrypt_tape_ckks {V E : Type} (h : Moduli k ms) (sec : V → Nat → Int) (err : E → Nat → Int) (pk : PublicKey)
    (hm : pk.moduli = ms) (hb : Reduced k ms pk.b) (ha : Reduced k ms pk.a) (m : Mat) (hM : ∀ i p, m i p < 2 ^ 63)
    (x : V × E × E) (l : List (V × E × E)) :
    ∃ ct, encryptRandom tapeRng (2 ^ k) pk { data := m, moduli := ms } (textTape k sec err (x :: l)) =
        .ok (ct, textTape k sec err l) ∧ ct.moduli = ms ∧ Reduced k ms ct.c0 ∧ Reduced k ms ct.c1 ∧
      (limbView k ms ct.c0, limbView k ms ct.c1) =
        ringEncrypt (fun v => limbPoly k ms (sec v)) (fun e => limbPoly k ms (err e))
          (limbView k ms pk.b, limbView k ms pk.a) (limbView k ms m) x := by
  obtain ⟨ct, h1, h2, h3, h4, h5, h6⟩ := encrypt_spec h pk hm hb ha m hM (cut k (sec x.1)) (cut k (err x.2.1)) (cut k (err x.2.2))
  rw [limbPoly_cut, limbPoly_cut] at h5 h6
  refine ⟨ct, ?_, h2, h3, h4, Prod.ext h5 h6⟩
  have t1 : ternaryCoeffs tapeRng (2 ^ k) (textTape k sec err (x :: l)) = .ok (cut k (sec x.1),
      ⟨l.flatMap (fun x => coeffList k (sec x.1)), [],
        (x :: l).flatMap (fun x => coeffList k (err x.2.1) ++ coeffList k (err x.2.2)), []⟩) :=
    ternary_tape (sec x.1) ⟨l.flatMap (fun x => coeffList k (sec x.1)), [],
        (x :: l).flatMap (fun x => coeffList k (err x.2.1) ++ coeffList k (err x.2.2)), []⟩
  have hassoc : (x :: l).flatMap (fun x => coeffList k (err x.2.1) ++ coeffList k (err x.2.2)) = coeffList k (err x.2.1) ++
      (coeffList k (err x.2.2) ++ l.flatMap (fun x => coeffList k (err x.2.1) ++ coeffList k (err x.2.2))) := by
    rw [List.flatMap_cons, List.append_assoc]
  rw [hassoc] at t1
  have t2 : gaussianCoeffs tapeRng (2 ^ k) ⟨l.flatMap (fun x => coeffList k (sec x.1)), [], coeffList k (err x.2.1) ++
      (coeffList k (err x.2.2) ++ l.flatMap (fun x => coeffList k (err x.2.1) ++ coeffList k (err x.2.2))), []⟩ =
      .ok (cut k (err x.2.1), ⟨l.flatMap (fun x => coeffList k (sec x.1)), [],
        coeffList k (err x.2.2) ++ l.flatMap (fun x => coeffList k (err x.2.1) ++ coeffList k (err x.2.2)), []⟩) :=
    gaussian_tape (err x.2.1) ⟨l.flatMap (fun x => coeffList k (sec x.1)), [],
        coeffList k (err x.2.2) ++ l.flatMap (fun x => coeffList k (err x.2.1) ++ coeffList k (err x.2.2)), []⟩
  have t3 : gaussianCoeffs tapeRng (2 ^ k) ⟨l.flatMap (fun x => coeffList k (sec x.1)), [],
      coeffList k (err x.2.2) ++ l.flatMap (fun x => coeffList k (err x.2.1) ++ coeffList k (err x.2.2)), []⟩ =
      .ok (cut k (err x.2.2), textTape k sec err l) :=
    gaussian_tape (err x.2.2) (textTape k sec err l)
  unfold encryptRandom
  simp only
  rw [if_neg (by rw [hm, List.take_length]; simp)]
  show (do let v ← ternaryCoeffs tapeRng (2 ^ k); let e0 ← gaussianCoeffs tapeRng (2 ^ k); let e1 ← gaussianCoeffs tapeRng (2 ^ k)
           MonadExcept.ofExcept (encrypt (2 ^ k) pk { data := m, moduli := ms } v e0 e1) : CkksSession.Draw Tape Ciphertext) _ = _
  rw [bindOk _ _ _ _ _ t1, bindOk _ _ _ _ _ t2, bindOk _ _ _ _ _ t3]
  exact ofExceptOk _ _ h1 _

theorem ckksOracle_tape {V E : Type} (h : Moduli k ms) (sec : V → Nat → Int) (err : E → Nat → Int) (pk : PublicKey)
    (hm : pk.moduli = ms) (hb : Reduced k ms pk.b) (ha : Reduced k ms pk.a)
    (choose : List (LimbRing k ms × LimbRing k ms) → Mat) (hc : ∀ hist i p, choose hist i p < 2 ^ 63) (l : List (V × E × E))
    (hist : List (LimbRing k ms × LimbRing k ms)) :
    ckksOracle tapeRng k ms pk choose l.length hist (textTape k sec err l) =
      .ok (ringRun (fun v => limbPoly k ms (sec v)) (fun e => limbPoly k ms (err e)) (limbView k ms pk.b, limbView k ms pk.a)
        (fun hist => limbView k ms (choose hist)) hist l, textTape k sec err []) := by
  induction l generalizing hist with
  | nil => rfl
  | cons x l ih =>
    obtain ⟨ct, h1, -, -, -, h2⟩ := encrypt_tape_ckks h sec err pk hm hb ha (choose hist) (hc hist) x l
    show (encryptRandom tapeRng (2 ^ k) pk { data := choose hist, moduli := ms } >>= fun ct =>
      ckksOracle tapeRng k ms pk choose l.length (hist ++ [(limbView k ms ct.c0, limbView k ms ct.c1)])) _ = _
    rw [bindOk _ _ _ _ _ h1, h2]
    exact ih _

/-- The game is the one over the ring. -/
theorem ckksGame_eq {K V E : Type} [Fintype K] [Fintype V] [Fintype E] [Fintype (LimbRing k ms)] (h : Moduli k ms)
    (hw : Option Nat) (κ' : K → ℝ) (κ : V → ℝ) (χ : E → ℝ) (secretTape : K → Tape) (sec' : K → Nat → Int) (sec : V → Nat → Int)
    (err : E → Nat → Int) (choose : LimbRing k ms × LimbRing k ms → List (LimbRing k ms × LimbRing k ms) → Mat)
    (hc : ∀ pk hist i p, choose pk hist i p < 2 ^ 63)
    (guess : LimbRing k ms × LimbRing k ms → List (LimbRing k ms × LimbRing k ms) → ℝ) (q : Nat)
    (hsk : ∀ s, ∃ c, limbPoly k ms c = limbPoly k ms (sec' s) ∧
      ∀ t', secretDraw k hw ((secretTape s).append t') = .ok (c, t')) :
    ckksGame k ms hw κ' κ χ secretTape sec err choose guess q =
      ringGame κ' κ χ (fun s => limbPoly k ms (sec' s)) (fun v => limbPoly k ms (sec v)) (fun e => limbPoly k ms (err e))
        (fun pk hist => limbView k ms (choose pk hist)) guess q := by
  unfold ckksGame ringGame
  refine Finset.sum_congr rfl (fun s _ => ?_)
  congr 1
  refine Finset.sum_congr rfl (fun x _ => ?_)
  congr 1
  unfold ringRest
  refine expectIid_congr _ _ _ _ (fun l hl => ?_)
  obtain ⟨c, hc1, hc2⟩ := hsk s
  obtain ⟨keys, k1, k2, k3, k4, k5, k6⟩ := keygen_tape h hw err c (secretTape s) x (textTape k sec err l) hc2
  have h3 := ckksOracle_tape h sec err keys.1 k2 k3 k4 (choose (limbView k ms keys.1.b, limbView k ms keys.1.a))
    (hc _) l []
  have h4 : ckksView tapeRng k ms hw choose q ((secretTape s).append ((keyTape k ms err x).append (textTape k sec err l))) =
      .ok (((limbView k ms keys.1.b, limbView k ms keys.1.a), ringRun (fun v => limbPoly k ms (sec v))
        (fun e => limbPoly k ms (err e)) (limbView k ms keys.1.b, limbView k ms keys.1.a)
        (fun hist => limbView k ms (choose (limbView k ms keys.1.b, limbView k ms keys.1.a) hist)) [] l), textTape k sec err []) := by
    unfold ckksView
    rw [bindOk _ _ _ _ _ k1]
    subst hl
    rw [bindOk _ _ _ _ _ h3]
    rfl
  rw [h4]
  simp only
  rw [k5, k6, hc1]

theorem limbView_inj (h : Moduli k ms) {A B : Mat} (hA : Reduced k ms A) (hB : Reduced k ms B)
    (e : limbView k ms A = limbView k ms B) : ∀ i, i < ms.length → ∀ p, p < 2 ^ k → A i p = B i p := fun i hi =>
  ringOf_inj (h.at hi).1 (hA i hi) (hB i hi) (congrFun e ⟨i, hi⟩)

theorem LimbRing_finite (h : Moduli k ms) : Finite (LimbRing k ms) := by
  have : ∀ i : Fin ms.length, Finite (Rq k (ms.getD i 0)) := by
    intro i
    have := fact (h.at i.isLt).1
    have : NeZero (ms.getD i 0) := ⟨(h.at i.isLt).1.prime.ne_zero⟩
    exact Finite.of_surjective (Nega.ev (R := ZMod (ms.getD i 0)) (N := 2 ^ k))
      (fun a => ⟨_, Nega.ev_coeffs (by positivity) a⟩)
  infer_instance

/-- Attacks on ring LWE that the theorems below speak of: the public key from one sample. -/
noncomputable def ckksKeyAttack {V E : Type} [Fintype V] [Fintype E] [Fintype (LimbRing k ms)] (κ : V → ℝ) (χ : E → ℝ)
    (sec : V → Nat → Int) (err : E → Nat → Int)
    (choose : LimbRing k ms × LimbRing k ms → List (LimbRing k ms × LimbRing k ms) → Mat)
    (guess : LimbRing k ms × LimbRing k ms → List (LimbRing k ms × LimbRing k ms) → ℝ) (q : Nat) :
    List (LimbRing k ms × LimbRing k ms) → ℝ :=
  keyAttack κ χ (fun v => limbPoly k ms (sec v)) (fun e => limbPoly k ms (err e))
    (fun pk hist => limbView k ms (choose pk hist)) guess q

/-- The `i`-th ciphertext from two samples. -/
noncomputable def ckksTextAttack {V E : Type} [Fintype V] [Fintype E] [Fintype (LimbRing k ms)] (κ : V → ℝ) (χ : E → ℝ)
    (sec : V → Nat → Int) (err : E → Nat → Int)
    (choose : LimbRing k ms × LimbRing k ms → List (LimbRing k ms × LimbRing k ms) → Mat)
    (guess : LimbRing k ms × LimbRing k ms → List (LimbRing k ms × LimbRing k ms) → ℝ) (q i : Nat) :
    List (LimbRing k ms × LimbRing k ms) → ℝ :=
  textAttack κ χ (fun v => limbPoly k ms (sec v)) (fun e => limbPoly k ms (err e))
    (fun pk hist => limbView k ms (choose pk hist)) guess q i

/-- C97: whoever sees the public key and `q` encryptions of plaintexts of their choice, and tells the left ones from the right
ones, tells ring-LWE samples from uniform pairs. The secret key is drawn like `v`. -/
theorem C97_encrypt {V E : Type} [Fintype V] [Fintype E] [Fintype (LimbRing k ms)] (h : Moduli k ms)
    (κ : V → ℝ) (χ : E → ℝ) (sec : V → Nat → Int) (err : E → Nat → Int)
    (left right : LimbRing k ms × LimbRing k ms → List (LimbRing k ms × LimbRing k ms) → Mat)
    (hl : ∀ pk hist i p, left pk hist i p < 2 ^ 63) (hr : ∀ pk hist i p, right pk hist i p < 2 ^ 63)
    (guess : LimbRing k ms × LimbRing k ms → List (LimbRing k ms × LimbRing k ms) → ℝ) (q : Nat) :
    |ckksGame k ms none κ κ χ (fun v => ⟨coeffList k (sec v), [], [], []⟩) sec err left guess q -
      ckksGame k ms none κ κ χ (fun v => ⟨coeffList k (sec v), [], [], []⟩) sec err right guess q| ≤
      (rlweAdvantage κ χ (fun v => limbPoly k ms (sec v)) (fun e => limbPoly k ms (err e)) 1
          (ckksKeyAttack κ χ sec err left guess q) +
        ∑ i ∈ Finset.range q, rlweAdvantage κ χ (fun v => limbPoly k ms (sec v)) (fun e => limbPoly k ms (err e)) 2
          (ckksTextAttack κ χ sec err left guess q i)) +
      (rlweAdvantage κ χ (fun v => limbPoly k ms (sec v)) (fun e => limbPoly k ms (err e)) 1
          (ckksKeyAttack κ χ sec err right guess q) +
        ∑ i ∈ Finset.range q, rlweAdvantage κ χ (fun v => limbPoly k ms (sec v)) (fun e => limbPoly k ms (err e)) 2
          (ckksTextAttack κ χ sec err right guess q i)) := by
  have hsk : ∀ v : V, ∃ c, limbPoly k ms c = limbPoly k ms (sec v) ∧
      ∀ t', secretDraw k none (Tape.append ⟨coeffList k (sec v), [], [], []⟩ t') = .ok (c, t') := fun v =>
    ⟨cut k (sec v), limbPoly_cut _, fun t' => ternary_tape (sec v) t'⟩
  rw [ckksGame_eq h none κ κ χ _ sec sec err left hl guess q hsk, ckksGame_eq h none κ κ χ _ sec sec err right hr guess q hsk]
  exact ringChoice_le κ κ χ _ _ _ guess _ _ q

/-- C97 for sparse secret keys, drawn as lists of positions. -/
theorem C97_encrypt_sparse {K V E : Type} [Fintype K] [Fintype V] [Fintype E] [Fintype (LimbRing k ms)] (h : Moduli k ms)
    (w : Nat) (hw : w ≤ 2 ^ k) (κ' : K → ℝ) (κ : V → ℝ) (χ : E → ℝ) (positions : K → List Nat)
    (hpos : ∀ s, ∀ i ∈ positions s, i < 2 ^ k) (sec : V → Nat → Int) (err : E → Nat → Int)
    (left right : LimbRing k ms × LimbRing k ms → List (LimbRing k ms × LimbRing k ms) → Mat)
    (hl : ∀ pk hist i p, left pk hist i p < 2 ^ 63) (hr : ∀ pk hist i p, right pk hist i p < 2 ^ 63)
    (guess : LimbRing k ms × LimbRing k ms → List (LimbRing k ms × LimbRing k ms) → ℝ) (q : Nat) :
    |ckksGame k ms (some w) κ' κ χ (fun s => ⟨[], [], [], [positions s]⟩) sec err left guess q -
      ckksGame k ms (some w) κ' κ χ (fun s => ⟨[], [], [], [positions s]⟩) sec err right guess q| ≤
      (rlweAdvantage κ' χ (fun s => limbPoly k ms (fun p => if p ∈ positions s then 1 else 0)) (fun e => limbPoly k ms (err e)) 1
          (ckksKeyAttack κ χ sec err left guess q) +
        ∑ i ∈ Finset.range q, rlweAdvantage κ χ (fun v => limbPoly k ms (sec v)) (fun e => limbPoly k ms (err e)) 2
          (ckksTextAttack κ χ sec err left guess q i)) +
      (rlweAdvantage κ' χ (fun s => limbPoly k ms (fun p => if p ∈ positions s then 1 else 0)) (fun e => limbPoly k ms (err e)) 1
          (ckksKeyAttack κ χ sec err right guess q) +
        ∑ i ∈ Finset.range q, rlweAdvantage κ χ (fun v => limbPoly k ms (sec v)) (fun e => limbPoly k ms (err e)) 2
          (ckksTextAttack κ χ sec err right guess q i)) := by
  have hsk : ∀ s : K, ∃ c, limbPoly k ms c = limbPoly k ms (fun p => if p ∈ positions s then 1 else 0) ∧
      ∀ t', secretDraw k (some w) (Tape.append ⟨[], [], [], [positions s]⟩ t') = .ok (c, t') := by
    intro s
    refine ⟨fun p => if p ∈ positions s then 1 else 0, rfl, fun t' => ?_⟩
    have hall : ((positions s).all (fun i => i < 2 ^ k)) = true := by
      rw [List.all_eq_true]
      exact fun i hi => decide_eq_true (hpos s i hi)
    unfold secretDraw sparseCoeffs
    simp only
    rw [if_neg (by omega)]
    show (if ((positions s).all (fun i => i < 2 ^ k)) = false then throw "IndexError" else _ : CkksSession.Draw Tape (Nat → Int)) _ = _
    rw [if_neg (by rw [hall]; simp)]
    rfl
  rw [ckksGame_eq h (some w) κ' κ χ _ _ sec err left hl guess q hsk,
    ckksGame_eq h (some w) κ' κ χ _ _ sec err right hr guess q hsk]
  exact ringChoice_le κ' κ χ _ _ _ guess _ _ q

/-- C97: nothing is lost by showing the attacker ring elements: the public key and all ciphertexts are reduced, and reduced
arrays with the same ring elements are equal. -/
theorem C97_view (h : Moduli k ms) {A B : Mat} (hA : Reduced k ms A) (hB : Reduced k ms B) :
    limbView k ms A = limbView k ms B ↔ ∀ i, i < ms.length → ∀ p, p < 2 ^ k → A i p = B i p := by
  refine ⟨limbView_inj h hA hB, fun e => ?_⟩
  funext i
  exact ringOf_congr (h.at i.isLt).1 (fun p hp => by rw [e i i.isLt p hp])

theorem ringGame_one {R K V E : Type} [CommRing R] [Fintype R] [Fintype K] [Fintype V] [Fintype E] (κ' : K → ℝ) (κ : V → ℝ)
    (χ : E → ℝ) (hκ' : ∑ s, κ' s = 1) (hκ : ∑ v, κ v = 1) (hχ : ∑ e, χ e = 1) (sec' : K → R) (sec : V → R) (err : E → R)
    (choose : R × R → List (R × R) → R) (q : Nat) : ringGame κ' κ χ sec' sec err choose (fun _ _ => 1) q = 1 := by
  unfold ringGame ringRest
  have h1 : ∑ x : V × E × E, encWeight κ χ x = 1 := by
    unfold encWeight
    simp only [Fintype.sum_prod_type, ← Finset.mul_sum, hχ, mul_one, hκ]
  have h2 : ∑ x : R × E, ringWeight R χ x = 1 := by
    unfold ringWeight
    simp only [Fintype.sum_prod_type, ← Finset.mul_sum, hχ, mul_one, Finset.sum_const, Finset.card_univ, nsmul_eq_mul]
    exact one_div_mul_cancel (Nat.cast_ne_zero (R := ℝ).2 (Fintype.card_ne_zero (α := R)))
  simp only [expectIid_one _ h1, mul_one, h2, hκ']

/-- C97: the game is an expectation: nothing raises. -/
theorem C97_total {V E : Type} [Fintype V] [Fintype E] [Fintype (LimbRing k ms)] (h : Moduli k ms)
    (κ : V → ℝ) (χ : E → ℝ) (hκ : ∑ v, κ v = 1) (hχ : ∑ e, χ e = 1) (sec : V → Nat → Int) (err : E → Nat → Int)
    (choose : LimbRing k ms × LimbRing k ms → List (LimbRing k ms × LimbRing k ms) → Mat)
    (hc : ∀ pk hist i p, choose pk hist i p < 2 ^ 63) (q : Nat) :
    ckksGame k ms none κ κ χ (fun v => ⟨coeffList k (sec v), [], [], []⟩) sec err choose (fun _ _ => 1) q = 1 := by
  have hsk : ∀ v : V, ∃ c, limbPoly k ms c = limbPoly k ms (sec v) ∧
      ∀ t', secretDraw k none (Tape.append ⟨coeffList k (sec v), [], [], []⟩ t') = .ok (c, t') := fun v =>
    ⟨cut k (sec v), limbPoly_cut _, fun t' => ternary_tape (sec v) t'⟩
  rw [ckksGame_eq h none κ κ χ _ sec sec err choose hc _ q hsk]
  exact ringGame_one κ κ χ hκ hκ hχ _ _ _ _ q

/-- C97: the masks of the game are drawn uniformly: the lists of residues below the moduli are in bijection with the ring
elements. -/
theorem C97_masks (h : Moduli k ms) :
    Function.Bijective (fun (r : ∀ i : Fin ms.length, Fin (2 ^ k) → ZMod (ms.getD i 0)) => (fun i => Nega.ev (r i) : LimbRing k ms)) := by
  constructor
  · intro r r' e
    funext i
    exact Nega.ev_injective (by positivity) (congrFun e i)
  · intro a
    refine ⟨fun i => Nega.coeffs (a i), ?_⟩
    funext i
    have := fact (h.at i.isLt).1
    exact Nega.ev_coeffs (by positivity) (a i)

/-- Two limbs of degree four, binary secrets (`2^4` of them) and errors in `{-1, 0, 1}`: the conditions of
`C97_encrypt`, `C97_encrypt_sparse`, `C97_view` and `C97_total`. -/
example : Moduli (1 + 1) [1073184769, 1073135617] ∧ Finite (LimbRing (1 + 1) [1073184769, 1073135617]) ∧
    (∑ _v : Fin 4 → Bool, (1 / 16 : ℝ)) = 1 ∧ (∑ _e : Fin 4 → Fin 3, (1 / 81 : ℝ)) = 1 := by
  refine ⟨moduli_big, LimbRing_finite moduli_big, ?_, ?_⟩
  · simp
  · simp

end Verif.Props
