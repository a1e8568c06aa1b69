import Verif.Lemmas.EcPointInv
import Verif.Props.EcEdwards

/-!
# C84: point objects

Programs over `ECPoint` objects: construction, `+`, `<<`, `copy`, the conversions, aliasing (`b = a`), and the in-place
operations `a[i] = e`, `a.append(e)`, `a[i].set_value(v)`.  Exceptions are caught and logged.

Specification: `Verif.Model.EcPointSpec`, where points are values.  `C84_run_partial` says that a program without in-place
operations cannot tell the objects from values, `C84_frame_partial` that such a statement never changes a point that exists,
whatever was done before; `C84_local`, `C84_independent` and `C84_new_elements` say what an in-place operation can
change.  `C84_edwards_session` and `C84_edwards_affine` give the meaning of the values in the group of the curve.

The code violates the full claim; the violations are stated at the end with concrete witnesses.
-/

namespace Verif.Props

open Verif.EcCurve Verif.EcPoint

variable {ι F : Type} [Field F] [DecidableEq F]

/-- Systems just constructed, with `ff_zero = 0` and `ff_one = 1`, and no points. -/
structure Start (S : ι → Sys F) (s : St ι F) : Prop where
  zero : ∀ i, s.heap.elems[(S i).zeroRef]? = some 0
  one : ∀ i, s.heap.elems[(S i).oneRef]? = some 1
  lists : s.heap.lists = []
  points : s.heap.points = []
  env : s.env = []
  log : s.log = []

theorem Start.rel {S : ι → Sys F} {s : St ι F} (h : Start S s) : Rel S s ⟨[], []⟩ where
  wf :=
    { sys := fun i => ⟨(List.getElem?_eq_some_iff.1 (h.zero i)).1, (List.getElem?_eq_some_iff.1 (h.one i)).1⟩
      lists := by simp [h.lists]
      points := by simp [h.points]
      none := by simp [h.points]
      sep := by simp [h.points] }
  ctx := by
    funext i
    simp [ctx, plain, Heap.elem, List.getD, h.zero i, h.one i]
  log := h.log
  env := by
    rw [h.env]
    exact .nil

theorem Start.ok {S : ι → Sys F} {s : St ι F} (h : Start S s) : StOk S s := ⟨h.rel.wf, by simp [h.env]⟩

/-- Every system over `ZMod 11` with the curve `y² = x³ + 1`; the constants of the twisted class satisfy the relations
required by the formulas. -/
def demo (k : Kind) : Sys (ZMod 11) :=
  let n := match k with
    | .affine => 0
    | .projective => 2
    | .xyzz => 4
    | .twisted => 6
  ⟨k, n, n + 1, 0, 1, ⟨5, 10, 9, 6, 9, 2⟩⟩

instance demoPrime : Fact (Nat.Prime 11) := ⟨by decide +kernel⟩

/-- The state before the first statement. -/
def demo0 : St Kind (ZMod 11) := ⟨⟨[0, 1, 0, 1, 0, 1, 0, 1], [], []⟩, [], []⟩

theorem demo_start : Start demo demo0 where
  zero i := by cases i <;> rfl
  one i := by cases i <;> rfl
  lists := rfl
  points := rfl
  env := rfl
  log := rfl

theorem demo_tw : TwOk (demo .twisted).tw where
  two := by decide +kernel
  alpha := by decide +kernel
  s := by decide +kernel
  mb := by decide +kernel
  ma := by decide +kernel
  t := by decide +kernel
  ts := by decide +kernel
  ds := by decide +kernel

/-! ## Programs without in-place operations -/

/-- **C84.** A program without in-place operations that converts no flagged point of the twisted class: the exceptions
raised and the values of all variables are those of the program on values.  In particular no variable ever changes. -/
theorem C84_run_partial (S : ι → Sys F) (s : St ι F) (h : Start S s) (prog : List (Cmd ι F))
    (hp : ∀ c ∈ prog, c.pure = true) (hs : safeRun (plain S) ⟨[], []⟩ prog = true) :
    (run S s prog).log = (vRun (plain S) ⟨[], []⟩ prog).log ∧
      ∀ v, (run S s prog).value v = (vRun (plain S) ⟨[], []⟩ prog).env[v]? := by
  obtain ⟨r, _⟩ := h.rel.run prog hp hs
  exact ⟨r.log, r.value⟩

/-- A program with all classes: generation, sums, shifts, copies, conversions and aliases. -/
def demoProg : List (Cmd Kind (ZMod 11)) :=
  [.gen .xyzz (some [.int 2, .int 3]) false true, .shift 0 1, .add 0 1, .copy 2, .toAffine 3,
    .gen .projective (some [.int 0, .int 1, .int 1]) false true, .add 5 5, .toAffine 6,
    .gen .twisted (some [.int 0, .int 1]) false true, .gen .twisted none true false, .add 8 9, .toAffine 10, .same 10,
    .gen .projective (some [.coord 7 0, .coord 7 1, .int 1]) false true, .add 0 99, .add 4 4]

example : (∀ c ∈ demoProg, c.pure = true) ∧ safeRun (plain demo) ⟨[], []⟩ demoProg = true ∧
    ((run demo demo0 demoProg).value 4).map PVal.coords = some (some [10, 0, 1, 1]) ∧
    ((run demo demo0 demoProg).value 7).map PVal.coords = some (some [0, 10, 1]) ∧
    ((run demo demo0 demoProg).value 11).map PVal.coords = some (some [0, 1, 1, 1]) ∧
    ((run demo demo0 demoProg).log.drop 13) = [none, some "NameError", none] := by
  refine ⟨?_, ?_, ?_, ?_, ?_, ?_⟩ <;> decide +kernel

/-- After any program, in-place operations and changed `ff_one` included: a statement without in-place operation
that does not convert a flagged point with coordinates leaves the values of all variables as they are. -/
theorem C84_frame_partial (S : ι → Sys F) (s : St ι F) (h : Start S s) (prog : List (Cmd ι F)) (c : Cmd ι F)
    (hc : c.pure = true) (hs : (run S s prog).safe c) (v : Nat) (hv : v < (run S s prog).env.length) :
    (step S (run S s prog) c).value v = (run S s prog).value v := by
  have ok := h.ok.run prog
  refine value_ext ok ?_ (step_env_lt S _ c hv)
  rw [step_heap]
  exact eval_ext ok c hc hs

/-- A program that changes `ff_one` of the XYZZ system through a converted point. -/
def demoBad : List (Cmd Kind (ZMod 11)) :=
  [.gen .xyzz (some [.int 2, .int 3]) false true, .shift 0 1, .toAffine 1, .setValue 2 2 5, .setItem 1 0 (.coord 0 1)]

example : (run demo demo0 demoBad).safe (.toAffine 1) ∧ 1 < (run demo demo0 demoBad).env.length ∧
    ((run demo demo0 demoBad).value 1).map PVal.coords = some (some [3, 7, 3, 7]) := by
  refine ⟨?_, by decide +kernel, by decide +kernel⟩
  intro p hp
  have : (run demo demo0 demoBad).value 1 = some ⟨some [3, 7, 3, 7], false, .xyzz, .xyzz⟩ := by decide +kernel
  rw [this] at hp
  simp only [Option.some.injEq] at hp
  subst hp
  simp

/-! ## What an in-place operation can change -/

/-- The variables do not refer to the same object. -/
def St.distinct (s : St ι F) (a b : Nat) : Prop := ∀ j, s.env[a]? = some j → s.env[b]? ≠ some j

/-- The point in the variable, if there is one, is not flagged zero. -/
def St.unflagged (s : St ι F) (a : Nat) : Prop := ∀ p, s.value a = some p → p.zero = false

/-- After any program: assigning a coordinate of a point that is not flagged zero, or appending one, changes no
other point, copies included. -/
theorem C84_local (S : ι → Sys F) (s : St ι F) (h : Start S s) (prog : List (Cmd ι F)) (a b i : Nat) (e : Arg F)
    (hd : St.distinct (run S s prog) a b) (hz : St.unflagged (run S s prog) a) :
    (step S (run S s prog) (.setItem a i e)).value b = (run S s prog).value b ∧
      (step S (run S s prog) (.append a e)).value b = (run S s prog).value b := by
  have ok := h.ok.run prog
  generalize run S s prog = t at *
  have same : ∀ {h' : Heap ι F}, Grown t.heap h' → ∀ lg, St.value ⟨h', t.env, lg⟩ b = t.value b := by
    intro h' g lg
    exact value_ext (t := ⟨h', t.env, lg⟩) ok g.ext rfl
  have self : Grown t.heap t.heap := Grown.refl _
  constructor
  · unfold step eval
    dsimp only
    cases h1 : t.elemArg e with
    | error x => exact same self _
    | ok u =>
      obtain ⟨r, h'⟩ := u
      have g := (ok.elemArg h1).1
      dsimp only
      cases h2 : t.obj a with
      | error x => exact same g _
      | ok p =>
        obtain ⟨j, hj, hp⟩ := obj_eq h2
        have hz' : p.zero = false := hz _ (value_some hj hp)
        dsimp only
        cases hl : p.coords with
        | none => exact same g _
        | some l =>
          by_cases hi : i < (h'.list l).length
          · simp only [if_pos hi]
            exact inplace_value ok hj hp hl hz' (fun he => hd j hj (he.trans hj)) g _ _
          · simp only [if_neg hi]
            exact same g _
  · unfold step eval
    dsimp only
    cases h2 : t.obj a with
    | error x => exact same self _
    | ok p =>
      obtain ⟨j, hj, hp⟩ := obj_eq h2
      have hz' : p.zero = false := hz _ (value_some hj hp)
      dsimp only
      cases h1 : t.elemArg e with
      | error x => exact same self _
      | ok u =>
        obtain ⟨r, h'⟩ := u
        have g := (ok.elemArg h1).1
        dsimp only
        cases hl : p.coords with
        | none => exact same g _
        | some l => exact inplace_value ok hj hp hl hz' (fun he => hd j hj (he.trans hj)) g _ _

example : St.distinct (run demo demo0 demoProg) 3 2 ∧ St.unflagged (run demo demo0 demoProg) 3 ∧
    (step demo (run demo demo0 demoProg) (.setItem 3 0 (.int 7))).value 3 ≠ (run demo demo0 demoProg).value 3 := by
  refine ⟨?_, ?_, by decide +kernel⟩
  · have h1 : (run demo demo0 demoProg).env[3]? = some 3 := by decide +kernel
    have h2 : (run demo demo0 demoProg).env[2]? = some 2 := by decide +kernel
    intro j hj
    rw [h1] at hj
    rw [h2]
    simp only [Option.some.injEq] at hj
    subst hj
    simp
  · have : ((run demo demo0 demoProg).value 3).map PVal.zero = some false := by decide +kernel
    intro p hp
    rw [hp] at this
    simpa using this

/-- After any program: the result of a constructor, of `+`, `copy`, a shift by a positive amount or a conversion (of a
class other than the affine one) is a new object.  Hence assigning its coordinates or appending to it does not change
any variable, and assigning coordinates of other variables does not change it. -/
theorem C84_independent (S : ι → Sys F) (s : St ι F) (h : Start S s) (prog : List (Cmd ι F)) (c : Cmd ι F)
    (hc : c.pure = true) (hs : (run S s prog).safe c) (hn : (run S s prog).makesNew S c) (b i : Nat) (e : Arg F)
    (hb : b < (run S s prog).env.length) :
    let t := run S s prog
    let t' := step S t c
    let r := t.env.length
    (St.unflagged t' r →
        (step S t' (.setItem r i e)).value b = t.value b ∧ (step S t' (.append r e)).value b = t.value b) ∧
      (St.unflagged t' b →
        (step S t' (.setItem b i e)).value r = t'.value r ∧ (step S t' (.append b e)).value r = t'.value r) := by
  intro t t' r
  have ok : StOk S t := h.ok.run prog
  have hrun : t' = run S s (prog ++ [c]) := by simp [t', t, run, List.foldl_append]
  have hfr : t'.value b = t.value b := C84_frame_partial S s h prog c hc hs b hb
  have hbe : t'.env[b]? = t.env[b]? := step_env_lt S t c hb
  have hsep : ∀ j, t'.env[r]? = some j → t'.env[b]? ≠ some j := by
    intro j hj hbj
    rcases step_env S t c with ⟨k, hk, he⟩ | ⟨_, he⟩
    · have h1 : t.heap.points.length ≤ k := eval_new ok c hn k hk
      have h2 : t'.env[r]? = some k := by
        change (step S t c).env[r]? = some k
        rw [he]
        simp [r]
      rw [h2] at hj
      rw [hbe] at hbj
      have h3 := ok.env j (mem_of_getElem? hbj)
      simp only [Option.some.injEq] at hj
      omega
    · have h2 : t'.env[r]? = none := by
        change (step S t c).env[r]? = none
        rw [he]
        simp [r]
      rw [h2] at hj
      cases hj
  constructor
  · intro hz
    have hl := C84_local S s h (prog ++ [c]) r b i e (hrun ▸ hsep) (hrun ▸ hz)
    rw [← hrun] at hl
    exact ⟨hl.1.trans hfr, hl.2.trans hfr⟩
  · intro hz
    have hl := C84_local S s h (prog ++ [c]) b r i e
      (hrun ▸ fun j hj hr => hsep j hr hj) (hrun ▸ hz)
    rw [← hrun] at hl
    exact hl

example : (run demo demo0 demoProg).safe (.copy 3) ∧ (run demo demo0 demoProg).makesNew demo (.copy 3) ∧
    3 < (run demo demo0 demoProg).env.length ∧
    St.unflagged (step demo (run demo demo0 demoProg) (.copy 3)) (run demo demo0 demoProg).env.length := by
  refine ⟨trivial, trivial, by decide +kernel, ?_⟩
  have h1 : (run demo demo0 demoProg).env.length = 15 := by decide +kernel
  have h2 : ((step demo (run demo demo0 demoProg) (.copy 3)).value 15).map PVal.zero = some false := by decide +kernel
  intro p hp
  rw [h1] at hp
  rw [hp] at h2
  simpa using h2

/-- After any program: the coordinates of a sum of two points that are not flagged zero (of any two points in the
twisted class) and of a positive shift of an unflagged point are new elements.  Hence `set_value` on one of them does
not change any variable. -/
theorem C84_new_elements (S : ι → Sys F) (s : St ι F) (h : Start S s) (prog : List (Cmd ι F)) (c : Cmd ι F)
    (hs : (run S s prog).makesElems S c) (b i : Nat) (x : F) (hb : b < (run S s prog).env.length) :
    (step S (step S (run S s prog) c) (.setValue (run S s prog).env.length i x)).value b =
      (run S s prog).value b := by
  have hpure : c.pure = true := by
    cases c <;> first | rfl | exact hs.elim
  have hsafe : (run S s prog).safe c := by
    cases c <;> trivial
  have hfr := C84_frame_partial S s h prog c hpure hsafe b hb
  have ok : StOk S (run S s prog) := h.ok.run prog
  generalize run S s prog = t at *
  rw [← hfr]
  have hev := fun k p l => eval_fresh ok c hs (k := k) (p := p) (l := l)
  have hbe : (step S t c).env[b]? = t.env[b]? := step_env_lt S t c hb
  have hext : Ext t.heap (step S t c).heap := by
    rw [step_heap]
    exact eval_ext ok c hpure hsafe
  have hr : ∀ j, (step S t c).elemRef t.env.length i = .ok j → t.heap.elems.length ≤ j := by
    intro j hj
    unfold St.elemRef at hj
    cases ho : (step S t c).obj t.env.length with
    | error e => simp [ho, bind, Except.bind] at hj
    | ok p =>
      obtain ⟨k, hk, hp⟩ := obj_eq ho
      simp only [ho, bind, Except.bind] at hj
      cases hl : p.coords with
      | none => simp [hl] at hj
      | some l =>
        simp only [hl] at hj
        cases hi : ((step S t c).heap.list l)[i]? with
        | none => simp [hi] at hj
        | some u =>
          simp only [hi, Except.ok.injEq] at hj
          subst hj
          rcases step_env S t c with ⟨k', hk', he⟩ | ⟨_, he⟩
          · rw [he] at hk
            simp only [List.getElem?_concat_length, Option.some.injEq] at hk
            subst hk
            rw [step_heap] at hp hi
            exact hev _ _ _ hk' hp hl u (mem_of_getElem? hi)
          · rw [he] at hk
            simp at hk
  generalize step S t c = t' at *
  unfold step eval
  dsimp only
  cases he : t'.elemRef t.env.length i with
  | error e => rfl
  | ok j =>
    dsimp only
    have hj := hr j he
    unfold St.value
    dsimp only
    rw [hbe]
    cases h1 : t.env[b]? with
    | none => rfl
    | some jb =>
      obtain ⟨q, hq⟩ := ok.obj h1
      have hq' := hext.point hq
      have hq'' : (t'.heap.setElem j x).points[jb]? = some q := hq'
      simp only [hq', hq'', Option.map_some]
      have := setElem_vals t'.heap j x q (by
        intro l hl hm
        have hll := ok.wf.points q (mem_of_getElem? hq) l hl
        rw [hext.list hll] at hm
        have := ok.wf.list_lt l hm
        omega)
      unfold Heap.val
      rw [this]

example : (run demo demo0 demoProg).makesElems demo (.add 0 1) ∧
    (step demo (step demo (run demo demo0 demoProg) (.add 0 1)) (.setValue 15 0 7)).value 15 ≠
      (step demo (run demo demo0 demoProg) (.add 0 1)).value 15 ∧ (run demo demo0 demoProg).env.length = 15 := by
  refine ⟨?_, by decide +kernel, by decide +kernel⟩
  have h0 : ((run demo demo0 demoProg).value 0).map PVal.zero = some false := by decide +kernel
  have h1 : ((run demo demo0 demoProg).value 1).map PVal.zero = some false := by decide +kernel
  intro p q hp hq
  rw [hp] at h0
  rw [hq] at h1
  exact Or.inr ⟨by simpa using h0, by simpa using h1⟩

/-! ## The values are those of the reference formulas -/

/-- The value of a point of the XYZZ class; `none` is the flagged zero point. -/
def ofXyzz (i : ι) (p : Option (Quad F)) : PVal ι F := ⟨p.map list4, p.isNone, i, .xyzz⟩

/-- The value of a point of the projective class. -/
def ofProj (i : ι) (p : Option (Triple F)) : PVal ι F := ⟨p.map list3, p.isNone, i, .projective⟩

theorem list4_inj {p q : Quad F} : list4 p = list4 q ↔ p = q := by
  obtain ⟨a, b, c, d⟩ := p
  obtain ⟨a', b', c', d'⟩ := q
  simp [list4]

theorem list3_inj {p q : Triple F} : list3 p = list3 q ↔ p = q := by
  obtain ⟨a, b, c⟩ := p
  obtain ⟨a', b', c'⟩ := q
  simp [list3]

theorem vNew_xyzz {S : ι → Sys F} {i : ι} (hk : (S i).kind = .xyzz) (p : Quad F) :
    vNew (plain S) i (some (list4 p)) false = .ok (ofXyzz i (some p)) := by
  simp [vNew, vFormal, plain, hk, list4, ofXyzz, Kind.ty]

theorem vNew_proj {S : ι → Sys F} {i : ι} (hk : (S i).kind = .projective) (p : Triple F) :
    vNew (plain S) i (some (list3 p)) false = .ok (ofProj i (some p)) := by
  simp [vNew, vFormal, plain, hk, list3, ofProj, Kind.ty]

theorem vCopy_xyzz {S : ι → Sys F} {i : ι} (hk : (S i).kind = .xyzz) (p : Option (Quad F)) :
    vCopy (plain S) (ofXyzz i p) = .ok (ofXyzz i p) := by
  cases p with
  | none => simp [vCopy, ofXyzz]
  | some p => simp [vCopy, vFormal, plain, hk, list4, ofXyzz]

theorem vCopy_proj {S : ι → Sys F} {i : ι} (hk : (S i).kind = .projective) (p : Option (Triple F)) :
    vCopy (plain S) (ofProj i p) = .ok (ofProj i p) := by
  cases p with
  | none => simp [vCopy, ofProj]
  | some p => simp [vCopy, vFormal, plain, hk, list3, ofProj]

/-- The operations on values of the XYZZ class are the reference formulas of C58. -/
theorem C84_xyzz (S : ι → Sys F) (i : ι) (hk : (S i).kind = .xyzz) (p q : Option (Quad F)) (x y : F) (n : Int) :
    vGen (plain S) i (some [x, y]) false true = .ok (ofXyzz i (some (x, y, 1, 1))) ∧
      vGen (plain S) i none true true = .ok (ofXyzz i none) ∧
      vAdd (plain S) (ofXyzz i p) (ofXyzz i q) = .ok (ofXyzz i (xyzzPointAdd (S i).a p q)) ∧
      vShift (plain S) (ofXyzz i p) n = .ok (ofXyzz i (xyzzShift (S i).a p n.toNat)) ∧
      vToAffine (plain S) i (ofXyzz i p) =
        .ok { ofXyzz i (xyzzToAffine p) with ty := if p.isNone then .xyzz else .affine } := by
  have hk' : (plain S i).kind = .xyzz := hk
  have ho : (plain S i).one = 1 := rfl
  have ha : (plain S i).a = (S i).a := rfl
  refine ⟨?_, ?_, ?_, ?_, ?_⟩
  · simp [vGen, vNew, vFormal, hk', ofXyzz, list4, Kind.ty]
    exact ho
  · simp [vGen, vNew, vFormal, hk', ofXyzz, Kind.ty]
  · unfold vAdd
    have hs : (ofXyzz i p).sys = i := rfl
    rw [hs, hk']
    cases q with
    | none =>
      have e : xyzzPointAdd (S i).a p none = p := by cases p <;> rfl
      rw [if_pos ⟨by simp, rfl⟩, e]
      exact vCopy_xyzz hk p
    | some q =>
      cases p with
      | none =>
        rw [if_neg (by simp [ofXyzz]), if_pos ⟨by simp, rfl⟩]
        exact vCopy_xyzz hk (some q)
      | some p =>
        have e : addVals (plain S i) (ofXyzz i (some p)).coords (ofXyzz i (some q)).coords =
            .ok (list4 (if p = q then xyzzDouble (S i).a p else xyzzAdd p q)) := by
          simp only [addVals, hk', ofXyzz, Option.map_some, Option.some.injEq, list4_inj]
          split
          · simp [doubleVals, hk', unpack4, list4, bind, Except.bind, ha]
          · simp [unpack4, list4, bind, Except.bind]
        rw [e]
        rw [if_neg (by simp [ofXyzz]), if_neg (by simp [ofXyzz])]
        simp only [vVals, vNew_xyzz hk, xyzzPointAdd]
        split <;> rfl
  · unfold vShift
    have hs : (ofXyzz i p).sys = i := rfl
    cases p with
    | none => simpa [ofXyzz, xyzzShift] using vCopy_xyzz hk none
    | some p =>
      simp only [ofXyzz, Option.isNone_some, Bool.false_eq_true, if_false, xyzzShift]
      generalize n.toNat = m
      induction m generalizing p with
      | zero => rfl
      | succ m ih =>
        rw [Function.iterate_succ_apply, ← ih _ rfl]
        have e : doubleVals (plain S i) (some (list4 p)) = .ok (list4 (xyzzDouble (S i).a p)) := by
          simp [doubleVals, hk', unpack4, list4, bind, Except.bind, ha]
        simp only [vDoubles, Option.map_some, e, vVals, vNew_xyzz hk]
        rfl
  · unfold vToAffine
    simp only [hk']
    have ht : (ofXyzz i p).ty = .xyzz := rfl
    rw [if_pos ht]
    unfold vConvert
    rw [vCopy_xyzz hk]
    cases p with
    | none => simp [ofXyzz, xyzzToAffine]
    | some p => simp [ofXyzz, xyzzToAffine, affineVals, hk', index, list4, ho, bind, Except.bind, List.replicate]

/-- The operations on values of the projective class are the reference formulas of C58 (a sum is an exception where the
formula is). -/
theorem C84_projective (S : ι → Sys F) (i : ι) (hk : (S i).kind = .projective) (p q : Option (Triple F)) (x y z : F)
    (n : Int) :
    vGen (plain S) i (some [x, y, z]) false true = .ok (ofProj i (some (x, y, z))) ∧
      vGen (plain S) i none true true = .ok (ofProj i none) ∧
      vAdd (plain S) (ofProj i p) (ofProj i q) = (projPointAdd (S i).a (S i).b p q).map (ofProj i) ∧
      vShift (plain S) (ofProj i p) n = .ok (ofProj i (projShift (S i).a p n.toNat)) ∧
      vToAffine (plain S) i (ofProj i p) =
        .ok { ofProj i (projToAffine p) with ty := if p.isNone then .projective else .affine } := by
  have hk' : (plain S i).kind = .projective := hk
  have ho : (plain S i).one = 1 := rfl
  have ha : (plain S i).a = (S i).a := rfl
  have hb : (plain S i).b = (S i).b := rfl
  refine ⟨?_, ?_, ?_, ?_, ?_⟩
  · simp [vGen, vNew, vFormal, hk', ofProj, list3, Kind.ty]
  · simp [vGen, vNew, vFormal, hk', ofProj, Kind.ty]
  · unfold vAdd
    have hs : (ofProj i p).sys = i := rfl
    rw [hs, hk']
    cases q with
    | none =>
      have e : projPointAdd (S i).a (S i).b p none = .ok p := by cases p <;> rfl
      rw [if_pos ⟨by simp, rfl⟩, e]
      exact vCopy_proj hk p
    | some q =>
      cases p with
      | none =>
        rw [if_neg (by simp [ofProj]), if_pos ⟨by simp, rfl⟩]
        exact vCopy_proj hk (some q)
      | some p =>
        have e : addVals (plain S i) (ofProj i (some p)).coords (ofProj i (some q)).coords =
            (projPointAdd (S i).a (S i).b (some p) (some q)).map fun r => (r.map list3).getD [] := by
          simp only [addVals, hk', ofProj, Option.map_some, Option.some.injEq, list3_inj, projPointAdd]
          by_cases hpq : p = q
          · rw [if_pos hpq, if_pos hpq]
            simp [doubleVals, hk', unpack3, list3, bind, Except.bind, ha, Except.map]
          · rw [if_neg hpq, if_neg hpq]
            by_cases h1 : p.2.2 = 1
            · by_cases h2 : q.2.2 = 1
              · have e : (p.1, p.2.1, (1 : F)) = p := by rw [← h1]
                simp [e, index, list3, h1, h2, ho, addZ1Vals, unpack3, projAddZ1, bind, Except.bind, Except.map]
              · simp [index, list3, h1, h2, ho, addZ1Vals, unpack3, projAddZ1, bind, Except.bind, Except.map]
            · by_cases h2 : q.2.2 = 1
              · simp [index, list3, h1, h2, ho, addZ1Vals, unpack3, projAddZ1, bind, Except.bind, Except.map]
              · simp [index, list3, h1, h2, ho, ha, hb, unpack3, bind, Except.bind, Except.map]
        rw [e, if_neg (by simp [ofProj]), if_neg (by simp [ofProj])]
        have hsome : ∀ r, projPointAdd (S i).a (S i).b (some p) (some q) = .ok r → ∃ u, r = some u := by
          intro r hr
          simp only [projPointAdd] at hr
          split at hr
          · exact ⟨_, (Except.ok.inj hr).symm⟩
          · split at hr
            · cases hm : projAddZ1 p q with
              | error e => simp [hm, Except.map] at hr
              | ok u => exact ⟨u, by simpa [hm, Except.map] using hr.symm⟩
            · exact ⟨_, (Except.ok.inj hr).symm⟩
        generalize projPointAdd (S i).a (S i).b (some p) (some q) = w at hsome
        cases w with
        | error e => rfl
        | ok r =>
          obtain ⟨u, rfl⟩ := hsome r rfl
          exact vNew_proj hk u
  · unfold vShift
    have hs : (ofProj i p).sys = i := rfl
    cases p with
    | none => simpa [ofProj, projShift] using vCopy_proj hk none
    | some p =>
      simp only [ofProj, Option.isNone_some, Bool.false_eq_true, if_false, projShift]
      generalize n.toNat = m
      induction m generalizing p with
      | zero => rfl
      | succ m ih =>
        rw [Function.iterate_succ_apply, ← ih _ rfl]
        have e : doubleVals (plain S i) (some (list3 p)) = .ok (list3 (projDouble (S i).a p)) := by
          simp [doubleVals, hk', unpack3, list3, bind, Except.bind, ha]
        simp only [vDoubles, Option.map_some, e, vVals, vNew_proj hk]
        rfl
  · unfold vToAffine
    simp only [hk']
    have ht : (ofProj i p).ty = .projective := rfl
    rw [if_pos ht]
    unfold vConvert
    rw [vCopy_proj hk]
    cases p with
    | none => simp [ofProj, projToAffine]
    | some p => simp [ofProj, projToAffine, affineVals, hk', index, list3, ho, bind, Except.bind, List.replicate]

example : (demo .xyzz).kind = .xyzz ∧ (demo .projective).kind = .projective ∧
    xyzzPointAdd (demo .xyzz).a (some (2, 3, 1, 1)) (some (2, 3, 1, 1)) = some (0, 7, 3, 7) ∧
    projPointAdd (demo .projective).a (demo .projective).b (some (2, 3, 1)) (some (0, 1, 1)) =
      .ok (some (8, 0, 3)) := by
  refine ⟨rfl, rfl, by decide +kernel, ?_⟩
  decide +kernel

/-! ## Twisted Edwards sessions in the group of the curve -/

section Edwards

/-- The statements of a session: points of odd order given by their affine coordinates, the zero point, sums, shifts,
copies and aliases. `pt x y` is the point with the coordinates `x` and `y`. -/
def EdCmd (i : ι) (pt : F → F → (W1 : WeierstrassCurve.Affine F).Point) : Cmd ι F → Prop
  | .gen j (some [.int x, .int y]) false true => j = i ∧ IsXY (pt x y) x y ∧ OddPt (pt x y)
  | .gen j none true false => j = i
  | .add _ _ => True
  | .shift _ _ => True
  | .copy _ => True
  | .same _ => True
  | _ => False

/-- The same statements on elements of the group.  A statement with a variable that does not exist does nothing. -/
def gStep (pt : F → F → (W1 : WeierstrassCurve.Affine F).Point) (env : List (W1 : WeierstrassCurve.Affine F).Point) :
    Cmd ι F → List (W1 : WeierstrassCurve.Affine F).Point
  | .gen _ (some [.int x, .int y]) false true => env ++ [pt x y]
  | .gen _ none true false => env ++ [0]
  | .add a b =>
    match env[a]?, env[b]? with
    | some A, some B => env ++ [A + B]
    | _, _ => env
  | .shift a n =>
    match env[a]? with
    | some A => env ++ [2 ^ n.toNat • A]
    | none => env
  | .copy a | .same a =>
    match env[a]? with
    | some A => env ++ [A]
    | none => env
  | _ => env

/-- A session on elements of the group. -/
def gRun (pt : F → F → (W1 : WeierstrassCurve.Affine F).Point) (prog : List (Cmd ι F)) :
    List (W1 : WeierstrassCurve.Affine F).Point := prog.foldl (gStep pt) []

/-- The value represents the point. -/
def EdVal (S : ι → Sys F) (i : ι) (x : PVal ι F) (A : (W1 : WeierstrassCurve.Affine F).Point) : Prop :=
  OddPt A ∧ ∃ q z, x = ⟨some (list4 q), z, i, .projective⟩ ∧ ERep (S i).tw q A ∧ (z = true → A = 0)

omit [DecidableEq F] in
theorem vNew_tw {S : ι → Sys F} {i : ι} (hk : (S i).kind = .twisted) (p : Quad F) :
    vNew (plain S) i (some (list4 p)) false = .ok ⟨some (list4 p), false, i, .projective⟩ := by
  simp [vNew, vFormal, plain, hk, list4, Kind.ty]

theorem EdVal.copy {S : ι → Sys F} {i : ι} (hk : (S i).kind = .twisted) {x : PVal ι F}
    {A : (W1 : WeierstrassCurve.Affine F).Point} (h : EdVal S i x A) : vCopy (plain S) x = .ok x := by
  obtain ⟨_, q, z, rfl, _⟩ := h
  cases z
  · simp [vCopy, vFormal, plain, hk, list4]
  · simp [vCopy]

theorem EdVal.add {S : ι → Sys F} {i : ι} (hk : (S i).kind = .twisted) (hc : TwOk (S i).tw) {x y : PVal ι F}
    {A B : (W1 : WeierstrassCurve.Affine F).Point} (hx : EdVal S i x A) (hy : EdVal S i y B) :
    ∃ r, vAdd (plain S) x y = .ok r ∧ EdVal S i r (A + B) := by
  obtain ⟨oA, p, zp, rfl, hp, _⟩ := hx
  obtain ⟨oB, q, zq, rfl, hq, _⟩ := hy
  have hk' : (plain S i).kind = .twisted := hk
  have e : addVals (plain S i) (some (list4 p)) (some (list4 q)) = .ok (list4 (edAdd (S i).tw.d p q)) := by
    have ht : (plain S i).tw = (S i).tw := rfl
    simp [addVals, hk', unpack4, list4, bind, Except.bind, ht]
  refine ⟨⟨some (list4 (edAdd (S i).tw.d p q)), false, i, .projective⟩, ?_, oA.add oB, _, _, rfl,
    C59_add _ hc p q A B oA oB hp hq, by simp⟩
  unfold vAdd
  rw [if_neg (fun h => h.1 hk'), if_neg (fun h => h.1 hk')]
  simp only [e, vVals, vNew_tw hk]

theorem EdVal.shift {S : ι → Sys F} {i : ι} (hk : (S i).kind = .twisted) (hc : TwOk (S i).tw) {x : PVal ι F}
    {A : (W1 : WeierstrassCurve.Affine F).Point} (hx : EdVal S i x A) (n : Int) :
    ∃ r, vShift (plain S) x n = .ok r ∧ EdVal S i r (2 ^ n.toNat • A) := by
  have hx' := hx
  obtain ⟨oA, p, z, rfl, hp, hz⟩ := hx
  cases z with
  | true =>
    refine ⟨_, hx'.copy hk, ?_⟩
    have hA := hz rfl
    subst hA
    rw [smul_zero]
    exact hx'
  | false =>
    refine ⟨⟨some (list4 (edShift p n.toNat)), false, i, .projective⟩, ?_, oA.nsmul _, _, _, rfl,
      C59_shift _ hc p A _ oA hp, by simp⟩
    simp only [vShift, Bool.false_eq_true, if_false]
    clear hp hx' hz
    generalize n.toNat = m
    induction m generalizing p with
    | zero => rfl
    | succ m ih =>
      have hk' : (plain S i).kind = .twisted := hk
      have e : doubleVals (plain S i) (some (list4 p)) = .ok (list4 (edDouble p)) := by
        have hz : (plain S i).zero = 0 := rfl
        simp [doubleVals, hk', unpack4, list4, bind, Except.bind, edDoubleC, edDouble, hz]
      simp only [vDoubles, e, vVals, vNew_tw hk]
      rw [ih]
      simp [edShift, Function.iterate_succ_apply]

theorem EdVal.gen {S : ι → Sys F} {i : ι} (hk : (S i).kind = .twisted) (hc : TwOk (S i).tw) {x y : F}
    {A : (W1 : WeierstrassCurve.Affine F).Point} (hA : IsXY A x y) (ho : OddPt A) :
    ∃ r, vGen (plain S) i (some [x, y]) false true = .ok r ∧ EdVal S i r A := by
  obtain ⟨p, hp, hr⟩ := C65_generate_point (S i).tw hc x y A hA ho
  refine ⟨⟨some (list4 p), false, i, .projective⟩, ?_, ho, p, false, rfl, hr, by simp⟩
  have hk' : (plain S i).kind = .twisted := hk
  have ht : twistC (plain S i) (x, y) = twist (S i).tw (x, y) := rfl
  unfold edGenerate at hp
  simp only [vGen, hk', and_self, if_true, ht]
  cases h : twist (S i).tw (x, y) with
  | none => simp [h] at hp
  | some q =>
    simp only [h, Except.ok.injEq] at hp
    subst hp
    simp [vNew, vFormal, hk', list4, edFormal, Kind.ty]
    rfl

theorem EdVal.zero {S : ι → Sys F} {i : ι} (hk : (S i).kind = .twisted) :
    ∃ r, vGen (plain S) i none true false = .ok r ∧ EdVal S i r 0 := by
  refine ⟨⟨some (list4 edZero), true, i, .projective⟩, ?_, OddPt.zero, edZero, true, rfl, C59_zero _, fun _ => rfl⟩
  have hk' : (plain S i).kind = .twisted := hk
  have ho : (plain S i).one = 1 := rfl
  have hz : (plain S i).zero = 0 := rfl
  simp [vGen, vNew, vFormal, hk', list4, edZero, Kind.ty, ho, hz]

theorem forall2_get {α β : Type} {R : α → β → Prop} {l : List α} {m : List β} (h : List.Forall₂ R l m) (a : Nat) :
    (l[a]? = none ∧ m[a]? = none) ∨ ∃ x y, l[a]? = some x ∧ m[a]? = some y ∧ R x y := by
  induction h generalizing a with
  | nil => exact Or.inl ⟨by simp, by simp⟩
  | cons hd _ ih =>
    cases a with
    | zero => exact Or.inr ⟨_, _, rfl, rfl, hd⟩
    | succ a => simpa using ih a

theorem edStep {S : ι → Sys F} {i : ι} (hk : (S i).kind = .twisted) (hc : TwOk (S i).tw)
    (pt : F → F → (W1 : WeierstrassCurve.Affine F).Point) {v : VSt ι F}
    {env : List (W1 : WeierstrassCurve.Affine F).Point} (h : List.Forall₂ (EdVal S i) v.env env) (c : Cmd ι F)
    (hcmd : EdCmd i pt c) :
    List.Forall₂ (EdVal S i) (vStep (plain S) v c).env (gStep pt env c) := by
  have done : ∀ {x : PVal ι F} {A : (W1 : WeierstrassCurve.Affine F).Point}, EdVal S i x A →
      List.Forall₂ (EdVal S i) (v.env ++ [x]) (env ++ [A]) := fun hx => forall2_concat h hx
  unfold EdCmd at hcmd
  split at hcmd
  · obtain ⟨rfl, hxy, ho⟩ := hcmd
    obtain ⟨r, e, hr⟩ := EdVal.gen hk hc hxy ho
    simp only [vStep, vEval, VSt.args, VSt.arg, bind, Except.bind, e, gStep]
    exact done hr
  · obtain rfl := hcmd
    obtain ⟨r, e, hr⟩ := EdVal.zero hk
    simp only [vStep, vEval, e, gStep]
    exact done hr
  · rename_i a b
    rcases forall2_get h a with ⟨h1, h2⟩ | ⟨x, A, h1, h2, hx⟩
    · simpa [vStep, vEval, VSt.get, h1, h2, gStep, bind, Except.bind] using h
    · rcases forall2_get h b with ⟨h3, h4⟩ | ⟨y, B, h3, h4, hy⟩
      · simpa [vStep, vEval, VSt.get, h1, h2, h3, h4, gStep, bind, Except.bind] using h
      · obtain ⟨r, e, hr⟩ := hx.add hk hc hy
        simp only [vStep, vEval, VSt.get, h1, h2, h3, h4, gStep, bind, Except.bind, e]
        exact done hr
  · rename_i a n
    rcases forall2_get h a with ⟨h1, h2⟩ | ⟨x, A, h1, h2, hx⟩
    · simpa [vStep, vEval, VSt.get, h1, h2, gStep, bind, Except.bind] using h
    · obtain ⟨r, e, hr⟩ := hx.shift hk hc n
      simp only [vStep, vEval, VSt.get, h1, h2, gStep, bind, Except.bind, e]
      exact done hr
  · rename_i a
    rcases forall2_get h a with ⟨h1, h2⟩ | ⟨x, A, h1, h2, hx⟩
    · simpa [vStep, vEval, VSt.get, h1, h2, gStep, bind, Except.bind] using h
    · simp only [vStep, vEval, VSt.get, h1, h2, gStep, bind, Except.bind, hx.copy hk]
      exact done hx
  · rename_i a
    rcases forall2_get h a with ⟨h1, h2⟩ | ⟨x, A, h1, h2, hx⟩
    · simpa [vStep, vEval, VSt.get, h1, h2, gStep] using h
    · simp only [vStep, vEval, VSt.get, h1, h2, gStep]
      exact done hx
  · exact hcmd.elim

theorem EdCmd.pure {i : ι} {pt : F → F → (W1 : WeierstrassCurve.Affine F).Point} {c : Cmd ι F} (h : EdCmd i pt c) :
    c.pure = true ∧ ∀ v : VSt ι F, v.safe c = true := by
  unfold EdCmd at h
  split at h <;> first | exact ⟨rfl, fun _ => rfl⟩ | exact h.elim

theorem edRun {S : ι → Sys F} {i : ι} (hk : (S i).kind = .twisted) (hc : TwOk (S i).tw)
    (pt : F → F → (W1 : WeierstrassCurve.Affine F).Point) (prog : List (Cmd ι F)) (hp : ∀ c ∈ prog, EdCmd i pt c) :
    ∀ (v : VSt ι F) (env : List (W1 : WeierstrassCurve.Affine F).Point), List.Forall₂ (EdVal S i) v.env env →
      safeRun (plain S) v prog = true ∧
        List.Forall₂ (EdVal S i) (vRun (plain S) v prog).env (prog.foldl (gStep pt) env) := by
  induction prog with
  | nil => exact fun v env h => ⟨rfl, h⟩
  | cons c t ih =>
    intro v env h
    have hcc := hp c (List.mem_cons_self ..)
    obtain ⟨h1, h2⟩ := ih (fun d hd => hp d (List.mem_cons_of_mem _ hd)) _ _ (edStep hk hc pt h c hcc)
    exact ⟨by simp [safeRun, hcc.pure.2 v, h1], h2⟩

/-- **C84.** A session with point objects of the twisted class: points of odd order given by Weierstrass coordinates,
the zero point, sums (equal, inverse and zero operands included), shifts, copies and aliases.  Every variable
represents the element of the group that the same statements compute there. -/
theorem C84_edwards_session (S : ι → Sys F) (s : St ι F) (h : Start S s) (i : ι) (hk : (S i).kind = .twisted)
    (hc : TwOk (S i).tw) (pt : F → F → (W1 : WeierstrassCurve.Affine F).Point) (prog : List (Cmd ι F))
    (hp : ∀ c ∈ prog, EdCmd i pt c) :
    (run S s prog).env.length = (gRun pt prog).length ∧
      ∀ (v : Nat) (A : (W1 : WeierstrassCurve.Affine F).Point), (gRun pt prog)[v]? = some A →
        ∃ q z, (run S s prog).value v = some ⟨some (list4 q), z, i, .projective⟩ ∧ ERep (S i).tw q A ∧
          (z = true → A = 0) := by
  obtain ⟨h1, h2⟩ := edRun hk hc pt prog hp ⟨[], []⟩ [] .nil
  obtain ⟨r, _⟩ := h.rel.run prog (fun c hc => (hp c hc).pure.1) h1
  refine ⟨r.env.length_eq.trans h2.length_eq, ?_⟩
  intro v A hA
  rcases forall2_get h2 v with ⟨_, e⟩ | ⟨x, B, e1, e2, hx⟩
  · rw [gRun] at hA
    rw [e] at hA
    cases hA
  · rw [gRun, e2] at hA
    obtain rfl := Option.some.inj hA
    obtain ⟨_, q, z, rfl, hq, hz⟩ := hx
    exact ⟨q, z, (r.value v).trans e1, hq, hz⟩

/-- ... and `convert_to_affine` of a variable that does not represent the neutral element gives the Weierstrass
coordinates of that element. -/
theorem C84_edwards_affine (S : ι → Sys F) (s : St ι F) (h : Start S s) (i : ι) (hk : (S i).kind = .twisted)
    (hc : TwOk (S i).tw) (pt : F → F → (W1 : WeierstrassCurve.Affine F).Point) (prog : List (Cmd ι F))
    (hp : ∀ c ∈ prog, EdCmd i pt c) (v : Nat) (A : (W1 : WeierstrassCurve.Affine F).Point)
    (hA : (gRun pt prog)[v]? = some A) (x y : F) (hxy : IsXY A x y) :
    (step S (run S s prog) (.toAffine v)).value (run S s prog).env.length =
      some ⟨some [x, y, 1, 1], false, i, .projective⟩ := by
  obtain ⟨h1, h2⟩ := edRun hk hc pt prog hp ⟨[], []⟩ [] .nil
  obtain ⟨r, _⟩ := h.rel.run prog (fun c hc => (hp c hc).pure.1) h1
  obtain ⟨q, z, hv, hq, hz⟩ := (C84_edwards_session S s h i hk hc pt prog hp).2 v A hA
  have hz' : z = false := by
    cases z with
    | false => rfl
    | true => exact absurd (hz rfl) hxy.ne_zero
  subst hz'
  rw [r.value v] at hv
  have hsafe : (vRun (plain S) ⟨[], []⟩ prog).safe (.toAffine v) = true := by
    simp [VSt.safe, hv]
  obtain ⟨r2, _⟩ := r.step (.toAffine v) rfl hsafe
  rw [r2.value]
  have hk' : (plain S i).kind = .twisted := hk
  have ho : (plain S i).one = 1 := rfl
  have ht : ∀ u : F × F, untwistC (plain S i) u = untwist (S i).tw u := fun _ => rfl
  have ea := C65_convert_to_affine (S i).tw hc q x y A hxy hq
  have ev : vEval (plain S) (vRun (plain S) ⟨[], []⟩ prog) (.toAffine v) =
      .ok ⟨some [x, y, 1, 1], false, i, .projective⟩ := by
    have hcp : vCopy (plain S) ⟨some (list4 q), false, i, .projective⟩ = .ok ⟨some (list4 q), false, i, .projective⟩ := by
      simp [vCopy, vFormal, hk', list4]
    have hcv : vConvert (plain S) i ⟨some (list4 q), false, i, .projective⟩ 2 none =
        .ok ⟨some [(edToEdAffine q).1, (edToEdAffine q).2, 1, 1], false, i, .projective⟩ := by
      simp only [vConvert, hcp]
      simp [affineVals, hk', unpack3, list4, bind, Except.bind, ho, edToEdAffine, List.replicate]
    simp only [vEval, VSt.get, hv, bind, Except.bind, vToAffine, hk', hcv, vUntwist, ht]
    have e2 : untwist (S i).tw ((edToEdAffine q).1, (edToEdAffine q).2) = (x, y) := ea
    rw [e2]
  have hlen : (run S s prog).env.length = (vRun (plain S) ⟨[], []⟩ prog).env.length := r.env.length_eq
  simp only [vStep, ev, hlen, List.getElem?_concat_length]

/-- Instance over the field of the code: the configured generator `G`, `G + G`, `8 G`, their sum, the zero point. -/
example : ∃ (pt : ZMod EcChunks.P → ZMod EcChunks.P → (W1 : WeierstrassCurve.Affine (ZMod EcChunks.P)).Point)
    (prog : List (Cmd Unit (ZMod EcChunks.P))) (S : Unit → Sys (ZMod EcChunks.P)) (s : St Unit (ZMod EcChunks.P)),
    Start S s ∧ (S ()).kind = .twisted ∧ TwOk (S ()).tw ∧ (∀ c ∈ prog, EdCmd () pt c) ∧
      gRun pt prog = [pt 0 0, 0, pt 0 0 + pt 0 0, 2 ^ 3 • pt 0 0, pt 0 0 + pt 0 0 + 2 ^ 3 • pt 0 0,
        pt 0 0 + pt 0 0 + 2 ^ 3 • pt 0 0 + 0] ∧ pt 0 0 ≠ 0 := by
  obtain ⟨G, hG, _, ho⟩ := C59_subgroup
  have h1 := ho 1
  rw [one_nsmul] at h1
  refine ⟨fun _ _ => G, [.gen () (some [.int (GEN_X : ZMod EcChunks.P), .int (GEN_Y : ZMod EcChunks.P)]) false true,
    .gen () none true false, .add 0 0, .shift 0 3, .add 2 3, .add 4 1], fun _ => ⟨.twisted, 0, 1, 0, 1, blsTwist⟩,
    ⟨⟨[0, 1], [], []⟩, [], []⟩, ⟨fun _ => rfl, fun _ => rfl, rfl, rfl, rfl, rfl⟩, rfl, C59_constants, ?_, rfl,
    hG.ne_zero⟩
  intro c hc
  simp only [List.mem_cons, List.not_mem_nil, or_false] at hc
  rcases hc with rfl | rfl | rfl | rfl | rfl | rfl
  · exact ⟨rfl, hG, h1⟩
  · rfl
  all_goals trivial

/-- Instance over `ZMod 11` with the conversion: `(0, 1) + (0, 1) = (0, -1)`. -/
example : ∃ (A : (W1 : WeierstrassCurve.Affine (ZMod 11)).Point) (prog : List (Cmd Kind (ZMod 11))),
    (∀ c ∈ prog, EdCmd .twisted (fun _ _ => A) c) ∧ (gRun (fun _ _ => A) prog)[1]? = some (A + A) ∧
      IsXY (A + A) 0 (-1) := by
  obtain ⟨A, hA⟩ : ∃ A : (W1 : WeierstrassCurve.Affine (ZMod 11)).Point, IsXY A 0 1 :=
    exists_isXY (by decide +kernel) (by decide +kernel) (by decide +kernel)
  have h2 := hA.double (by decide +kernel)
  have h3 : IsXY (A + A) 0 (-1) := by
    convert h2 using 1 <;> decide +kernel
  refine ⟨A, [.gen .twisted (some [.int 0, .int 1]) false true, .add 0 0], ?_, rfl, h3⟩
  intro c hc
  simp only [List.mem_cons, List.not_mem_nil, or_false] at hc
  rcases hc with rfl | rfl
  · refine ⟨rfl, hA, 3, by decide, ?_⟩
    rw [show (3 : Nat) = 2 + 1 from rfl, add_nsmul, one_nsmul, two_nsmul, add_comm]
    exact hA.add_neg h3
  · trivial

end Edwards

/-! ## Where the code differs from values -/

/-- The coordinates the affine class computes before its constructor refuses them (`add_general`), and those that the text
of `double_general` describes, are the coordinates of the sum and of the double. -/
theorem C84_affine_coordinates {a b x1 y1 x2 y2 : F} {A B : (shortW a b).Point} (hA : IsXY A x1 y1) (hB : IsXY B x2 y2) :
    (x1 ≠ x2 → IsXY (A + B) (affineAddCoords x1 y1 x2 y2).1 (affineAddCoords x1 y1 x2 y2).2) ∧
    (A + A ≠ 0 → IsXY (A + A) (affineDoubleCoords a x1 y1).1 (affineDoubleCoords a x1 y1).2) := by
  constructor
  · intro h
    have := hA.add hB h
    simpa only [affineAddCoords, pow_two] using this
  · intro h
    have := hA.double fun hy => h (hA.double_zero hy)
    have e : x1 * x1 * 3 + a = 3 * x1 ^ 2 + a := by ring
    simpa only [affineDoubleCoords, e, pow_two, mul_two] using this

example : ∃ A B : (shortW (0 : ZMod 11) 1).Point, IsXY A 2 3 ∧ IsXY B 0 1 ∧ IsXY (A + B) 10 0 := by
  obtain ⟨A, hA⟩ : ∃ A : (shortW (0 : ZMod 11) 1).Point, IsXY A 2 3 := exists_isXY (by decide) (by decide) (by decide)
  obtain ⟨B, hB⟩ : ∃ A : (shortW (0 : ZMod 11) 1).Point, IsXY A 0 1 := exists_isXY (by decide) (by decide) (by decide)
  have h := (C84_affine_coordinates hA hB).1 (by decide)
  have e : affineAddCoords (2 : ZMod 11) 3 0 1 = (10, 0) := by decide +kernel
  rw [e] at h
  exact ⟨A, B, hA, hB, h⟩

/-- `+` of the affine class never returns a sum of two points that are not flagged zero: different points fail in the
constructor (two coordinates are not accepted there), equal ones because an element is multiplied by an integer.  A
positive shift fails likewise. -/
theorem C84_affine_raises (S : ι → Sys F) (p q : PVal ι F) (hk : (S p.sys).kind = .affine) (hp : p.zero = false)
    (hq : q.zero = false) (n : Int) (hn : 0 < n) :
    (∃ e, vAdd (plain S) p q = .error e) ∧ ∃ e, vShift (plain S) p n = .error e := by
  have hk' : (plain S p.sys).kind = .affine := hk
  have hd : ∀ c : Option (List F), ∃ e, doubleVals (plain S p.sys) c = .error e := by
    intro c
    simp only [doubleVals, hk', bind, Except.bind]
    cases index c 0 with
    | error e => exact ⟨e, rfl⟩
    | ok u =>
      cases index c 1 with
      | error e => exact ⟨e, rfl⟩
      | ok v => exact ⟨_, rfl⟩
  constructor
  · simp only [vAdd, hp, hq, Bool.false_eq_true, and_false, if_false, addVals, hk']
    split
    · obtain ⟨e, he⟩ := hd p.coords
      exact ⟨e, by rw [he]; rfl⟩
    · simp only [bind, Except.bind]
      cases index q.coords 1 with
      | error e => exact ⟨e, rfl⟩
      | ok y2 =>
        cases index p.coords 1 with
        | error e => exact ⟨e, rfl⟩
        | ok y1 =>
          cases index q.coords 0 with
          | error e => exact ⟨e, rfl⟩
          | ok x2 =>
            cases index p.coords 0 with
            | error e => exact ⟨e, rfl⟩
            | ok x1 => exact ⟨"AssertionError", by simp [vVals, vNew, vFormal, hk']⟩
  · obtain ⟨m, hm⟩ : ∃ m, n.toNat = m + 1 := ⟨n.toNat - 1, by omega⟩
    obtain ⟨e, he⟩ := hd p.coords
    refine ⟨e, ?_⟩
    simp only [vShift, hp, Bool.false_eq_true, if_false, hm, vDoubles, he, vVals]

example : (demo .affine).kind = .affine ∧
    (run demo demo0 [.gen .affine (some [.int 2, .int 3, .int 1]) false true,
      .gen .affine (some [.int 0, .int 1, .int 1]) false true, .add 0 1, .add 0 0, .shift 0 1]).log =
        [none, none, some "AssertionError", some "AttributeError", some "AttributeError"] := by
  refine ⟨rfl, by decide +kernel⟩

/-- `XYZZ.convert_from_affine` of a legitimate affine point (three coordinates) makes a point with five coordinates;
copying, converting or adding it fails. -/
theorem C84_from_affine_unusable (S : ι → Sys F) (i : ι) (hi : (S i).kind = .xyzz) (p : PVal ι F)
    (hk : (S p.sys).kind = .affine) (hz : p.zero = false) (x y z : F) (hc : p.coords = some [x, y, z]) :
    ∃ r, vFromAffine (plain S) i p = .ok r ∧ r.coords = some [x, y, z, 1, 1] ∧
      (∃ e, vCopy (plain S) r = .error e) ∧ (∃ e, vToAffine (plain S) i r = .error e) ∧
        ∀ q : PVal ι F, q.zero = false → (∃ e, vAdd (plain S) r q = .error e) := by
  have hi' : (plain S i).kind = .xyzz := hi
  have hk' : (plain S p.sys).kind = .affine := hk
  have ho : (plain S i).one = 1 := rfl
  refine ⟨⟨some [x, y, z, 1, 1], false, i, .xyzz⟩, ?_, rfl, ⟨"AssertionError", ?_⟩, ⟨"AssertionError", ?_⟩, ?_⟩
  · simp [vFromAffine, hi', hk', Kind.ty, vCopy, hz, vFormal, hc, ho]
  · simp [vCopy, vFormal, hi']
  · simp [vToAffine, hi', vConvert, vCopy, vFormal]
  · intro q hq
    refine ⟨"ValueError", ?_⟩
    simp only [vAdd, hq, Bool.false_eq_true, and_false, if_false, addVals, hi']
    split <;> simp [doubleVals, hi', unpack4, bind, Except.bind, vVals]

example : (run demo demo0 [.gen .affine (some [.int 2, .int 3, .int 1]) false true, .fromAffine .xyzz 0, .copy 1,
    .add 1 1, .toAffine 1]).log = [none, none, some "AssertionError", some "ValueError", some "AssertionError"] := by
  decide +kernel

omit [DecidableEq F] in
/-- The conversions of the projective and the XYZZ class refuse their own results. -/
theorem C84_convert_twice (S : ι → Sys F) (p q : PVal ι F)
    (hk : (S p.sys).kind = .projective ∨ (S p.sys).kind = .xyzz) (hc : p.coords ≠ none)
    (h : vToAffine (plain S) p.sys p = .ok q) : vToAffine (plain S) q.sys q = .error "AssertionError" := by
  have key : ∀ ones, vConvert (plain S) p.sys p ones (some .affine) = .ok q → q.ty = .affine ∧ q.sys = p.sys := by
    intro ones hv
    unfold vConvert at hv
    have hcopy : ∀ r, vCopy (plain S) p = .ok r → r.coords ≠ none ∧ r.sys = p.sys := by
      intro r hr
      unfold vCopy at hr
      split at hr
      · obtain rfl := Except.ok.inj hr
        exact ⟨hc, rfl⟩
      · split at hr
        · cases hr
        · rename_i d hd
          obtain rfl := Except.ok.inj hr
          refine ⟨?_, rfl⟩
          rintro h0
          dsimp only at h0
          subst h0
          unfold vFormal at hd
          simp only [Bool.false_eq_true, false_and, if_false] at hd
          have hk' : (plain S p.sys).kind = .projective ∨ (plain S p.sys).kind = .xyzz := hk
          cases hpc : p.coords with
          | none => exact hc hpc
          | some vs =>
            rcases hk' with hk' | hk' <;> simp only [hpc, hk'] at hd
            · cases hd
            · split at hd
              · cases hd
              · split at hd <;> cases hd
    split at hv
    · cases hv
    · rename_i r hr
      obtain ⟨h1, h2⟩ := hcopy r hr
      rw [if_neg h1] at hv
      split at hv
      · cases hv
      · obtain rfl := Except.ok.inj hv
        exact ⟨rfl, h2⟩
  have hk' : (plain S p.sys).kind = .projective ∨ (plain S p.sys).kind = .xyzz := hk
  unfold vToAffine at h
  rcases hk' with hk' | hk' <;> simp only [hk'] at h
  · split at h
    · obtain ⟨h1, h2⟩ := key _ h
      simp [vToAffine, h2, hk', h1]
    · cases h
  · split at h
    · obtain ⟨h1, h2⟩ := key _ h
      simp [vToAffine, h2, hk', h1]
    · cases h

example : (run demo demo0 [.gen .xyzz (some [.int 2, .int 3]) false true, .toAffine 0, .toAffine 1]).log =
    [none, none, some "AssertionError"] := by
  decide +kernel

/-- `set_value` on a coordinate of a copy changes the original: `ECPoint.copy` shares the elements. -/
theorem C84_copy_shares_elements :
    let s := run demo demo0 [.gen .xyzz (some [.int 2, .int 3]) false true, .copy 0]
    s.value 0 = some ⟨some [2, 3, 1, 1], false, .xyzz, .xyzz⟩ ∧
      (step demo s (.setValue 1 0 7)).value 0 = some ⟨some [7, 3, 1, 1], false, .xyzz, .xyzz⟩ := by
  decide +kernel

/-- A converted point contains the element `ff_one` of its system: `set_value` on it changes the results of later
conversions and the points generated later. -/
theorem C84_conversion_shares_one :
    let s := run demo demo0 [.gen .xyzz (some [.int 2, .int 3]) false true, .shift 0 1, .toAffine 1, .setValue 2 2 5,
      .toAffine 1, .gen .xyzz (some [.int 2, .int 3]) false true]
    s.value 1 = some ⟨some [0, 7, 3, 7], false, .xyzz, .xyzz⟩ ∧
      s.value 2 = some ⟨some [0, 1, 5, 5], false, .xyzz, .affine⟩ ∧
      s.value 3 = some ⟨some [0, 5, 5, 5], false, .xyzz, .affine⟩ ∧
      s.value 4 = some ⟨some [2, 3, 5, 5], false, .xyzz, .xyzz⟩ := by
  decide +kernel

/-- `p << 0` is `p` itself. -/
theorem C84_shift_zero_alias :
    let s := run demo demo0 [.gen .xyzz (some [.int 2, .int 3]) false true, .shift 0 0]
    s.value 0 = some ⟨some [2, 3, 1, 1], false, .xyzz, .xyzz⟩ ∧
      (step demo s (.setItem 1 0 (.int 7))).value 0 = some ⟨some [7, 3, 1, 1], false, .xyzz, .xyzz⟩ := by
  decide +kernel

/-- `convert_to_affine` of the zero point of the twisted class fails and empties the list of coordinates of the zero
point and of its copies: afterwards these cannot be added any more. -/
theorem C84_convert_zero_destroys :
    let s := run demo demo0 [.gen .twisted (some [.int 0, .int 1]) false true, .gen .twisted none true false, .copy 1]
    let t := run demo s [.toAffine 1, .add 0 2]
    s.value 2 = some ⟨some [0, 1, 1, 0], true, .twisted, .projective⟩ ∧
      t.value 1 = some ⟨some [], true, .twisted, .projective⟩ ∧
      t.value 2 = some ⟨some [], true, .twisted, .projective⟩ ∧
      t.log = [none, none, none, some "ValueError", some "ValueError"] := by
  decide +kernel

/-- A copy of the zero point of the twisted class shares its list: an assignment changes both. -/
theorem C84_zero_copy_shares_list :
    let s := run demo demo0 [.gen .twisted none true false, .copy 0, .setItem 1 0 (.int 5)]
    s.value 0 = some ⟨some [5, 1, 1, 0], true, .twisted, .projective⟩ := by
  decide +kernel

/-- The results of the conversions of the twisted class keep the type of the class and are accepted by `+`, which
then returns a wrong sum without an exception: `(0, 1) + (0, 1)` is `(0, -1)`, but with one operand converted before
it is `(1, 7)` or `(3, 6)`. -/
theorem C84_converted_operand :
    let s := run demo demo0 [.gen .twisted (some [.int 0, .int 1]) false true, .add 0 0, .toAffine 1,
      .toAffine 0, .add 3 0, .toAffine 4, .toEdAffine 0, .add 0 6, .toAffine 7]
    s.value 2 = some ⟨some [0, -1, 1, 1], false, .twisted, .projective⟩ ∧
      s.value 5 = some ⟨some [1, 7, 1, 1], false, .twisted, .projective⟩ ∧
      s.value 8 = some ⟨some [3, 6, 1, 1], false, .twisted, .projective⟩ ∧ s.log = List.replicate 9 none := by
  decide +kernel

/-- `generate_point(None, zero=True)` of the twisted class with the default `twist=True` fails. -/
theorem C84_zero_needs_twist_false :
    (run demo demo0 [.gen .twisted none true true, .gen .twisted none true false]).log = [some "TypeError", none] := by
  decide +kernel

end Verif.Props
