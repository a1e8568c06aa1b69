import Verif.Model.EcHelpers
import Mathlib.Data.List.Forall2
import Mathlib.Tactic.Common

/-!
# C107, C108: frozen constants; the profiler wrapper
-/

namespace Verif.Props
open Verif.EcHelpers

/-! ## Specification -/

/-- What an index path finds in a value: an element of a sequence, of an element of it, … -/
def pyAt : PyVal → List Nat → Option PyVal
  | v, [] => some v
  | .seq _ xs, i :: is => match xs[i]? with
    | some x => pyAt x is
    | none => none
  | _, _ :: _ => none

/-- The number at an index path. -/
def numAt (v : PyVal) (path : List Nat) : Option Int :=
  match pyAt v path with
  | some (.num n) => some n
  | _ => none

/-- The length of what is at an index path, for sequences and strings. -/
def lenAt (v : PyVal) (path : List Nat) : Option Nat :=
  match pyAt v path with
  | some (.seq _ xs) => some xs.length
  | some (.str s) => some s.length
  | _ => none

/-- What Python can hash, and `jax.jit` therefore accept as static argument: numbers, strings, tuples of such. -/
inductive Hashable : PyVal → Prop
  | num (v) : Hashable (.num v)
  | str (s) : Hashable (.str s)
  | tuple (xs) : (∀ x ∈ xs, Hashable x) → Hashable (.seq .tuple xs)

/-- A value without strings of length at least one. -/
def NoText (v : PyVal) : Prop := ∀ path s, pyAt v path = some (.str s) → s = []

/-! ## to_tuple -/

theorem error_ne_ok {α : Type} {P : Prop} {e : String} {a : α} (h : (Except.error e : Except String α) = .ok a) : P := by
  cases h

theorem toTuple_seq (k : Kind) (xs : List PyVal) : toTuple (.seq k xs) = (xs.mapM toTuple).map (.seq .tuple) := by
  rw [toTuple]
  congr 1
  rw [List.mapM_subtype (g := toTuple) (fun x h => rfl), List.unattach_attach]

theorem mapM_ok {α β : Type} (f : α → Except String β) (xs : List α) (ys : List β) :
    xs.mapM f = .ok ys ↔ List.Forall₂ (fun x y => f x = .ok y) xs ys := by
  induction xs generalizing ys with
  | nil =>
    rw [List.mapM_nil]
    constructor
    · intro h
      rw [← Except.ok.inj h]
      exact .nil
    · intro h
      cases h
      rfl
  | cons x xs ih =>
    rw [List.mapM_cons]
    constructor
    · intro h
      cases hx : f x with
      | error e => rw [hx] at h; exact error_ne_ok h
      | ok y =>
        cases hxs : xs.mapM f with
        | error e => rw [hx, hxs] at h; exact error_ne_ok h
        | ok ys' =>
          rw [hx, hxs] at h
          rw [← Except.ok.inj h]
          exact .cons hx ((ih _).1 hxs)
    · intro h
      cases h with
      | cons hx hxs =>
        rw [hx, (ih _).2 hxs]
        rfl

theorem toTuple_seq_ok (k : Kind) (xs : List PyVal) (w : PyVal) :
    toTuple (.seq k xs) = .ok w ↔ ∃ ys, w = .seq .tuple ys ∧ List.Forall₂ (fun x y => toTuple x = .ok y) xs ys := by
  rw [toTuple_seq]
  constructor
  · intro h
    cases hxs : xs.mapM toTuple with
    | error e => rw [hxs] at h; exact error_ne_ok h
    | ok ys =>
      rw [hxs] at h
      exact ⟨ys, (Except.ok.inj h).symm, (mapM_ok _ _ _).1 hxs⟩
  · rintro ⟨ys, rfl, h⟩
    rw [(mapM_ok _ _ _).2 h]
    rfl

/-- Induction over values with the elements of sequences. -/
theorem PyVal.induct {P : PyVal → Prop} (hn : ∀ v, P (.num v)) (hs : ∀ s, P (.str s))
    (hq : ∀ k xs, (∀ x ∈ xs, P x) → P (.seq k xs)) : ∀ v, P v := by
  intro v
  induction h : sizeOf v using Nat.strongRecOn generalizing v with
  | _ n ih =>
    cases v with
    | num v => exact hn v
    | str s => exact hs s
    | seq k xs =>
      refine hq k xs (fun x hx => ih (sizeOf x) ?_ x rfl)
      have := List.sizeOf_lt_of_mem hx
      rw [← h, PyVal.seq.sizeOf_spec]
      omega

/-- C107: what `to_tuple` returns can be hashed. -/
theorem C107_hashable (v w : PyVal) (h : toTuple v = .ok w) : Hashable w := by
  induction v using PyVal.induct generalizing w with
  | hn v => rw [toTuple] at h; rw [← Except.ok.inj h]; exact .num v
  | hs s =>
    cases s with
    | nil => rw [toTuple] at h; rw [← Except.ok.inj h]; exact .tuple [] (fun x hx => by simp at hx)
    | cons c s => rw [toTuple] at h; exact error_ne_ok h
  | hq k xs ih =>
    obtain ⟨ys, rfl, hys⟩ := (toTuple_seq_ok k xs w).1 h
    refine .tuple ys (fun y hy => ?_)
    obtain ⟨i, hi, rfl⟩ := List.getElem_of_mem hy
    have hl := hys.length_eq
    exact ih _ (List.getElem_mem (by omega)) _ (hys.get (by omega) hi)

/-- C107: the same numbers at the same places, and the same lengths everywhere. -/
theorem C107_same (v w : PyVal) (h : toTuple v = .ok w) (path : List Nat) :
    numAt w path = numAt v path ∧ lenAt w path = lenAt v path := by
  induction v using PyVal.induct generalizing w path with
  | hn v => rw [toTuple] at h; rw [← Except.ok.inj h]; exact ⟨rfl, rfl⟩
  | hs s =>
    cases s with
    | nil =>
      rw [toTuple] at h
      rw [← Except.ok.inj h]
      cases path <;> exact ⟨rfl, rfl⟩
    | cons c s => rw [toTuple] at h; exact error_ne_ok h
  | hq k xs ih =>
    obtain ⟨ys, rfl, hys⟩ := (toTuple_seq_ok k xs w).1 h
    have hl := hys.length_eq
    cases path with
    | nil => exact ⟨rfl, by simp [lenAt, pyAt, hl]⟩
    | cons i is =>
      unfold numAt lenAt
      rw [pyAt, pyAt]
      by_cases hi : i < xs.length
      · rw [List.getElem?_eq_getElem hi, List.getElem?_eq_getElem (hl ▸ hi)]
        exact ih _ (List.getElem_mem hi) _ (hys.get hi (hl ▸ hi)) is
      · rw [List.getElem?_eq_none (by omega), List.getElem?_eq_none (by omega)]
        exact ⟨rfl, rfl⟩

/-- C107: it accepts exactly the values without text; the exception is `RecursionError`. -/
theorem C107_accepts (v : PyVal) : ((∃ w, toTuple v = .ok w) ↔ NoText v) ∧
    (¬ NoText v → toTuple v = .error "RecursionError") := by
  have key : (NoText v → ∃ w, toTuple v = .ok w) ∧ (¬ NoText v → toTuple v = .error "RecursionError") := by
    induction v using PyVal.induct with
    | hn v =>
      refine ⟨fun _ => ⟨_, by rw [toTuple]⟩, fun h => absurd ?_ h⟩
      intro path s hp
      cases path <;> simp [pyAt] at hp
    | hs s =>
      cases s with
      | nil =>
        refine ⟨fun _ => ⟨_, by rw [toTuple]⟩, fun h => absurd ?_ h⟩
        intro path s hp
        cases path <;> simp [pyAt] at hp
        exact hp
      | cons c s =>
        refine ⟨fun h => ?_, fun _ => by rw [toTuple]⟩
        have := h [] (c :: s) rfl
        simp at this
    | hq k xs ih =>
      have hsub : ∀ i (hi : i < xs.length), NoText (.seq k xs) → NoText xs[i] := by
        intro i hi h path s hp
        refine h (i :: path) s ?_
        rw [pyAt, List.getElem?_eq_getElem hi]
        exact hp
      constructor
      · intro h
        have h1 : ∀ x ∈ xs, ∃ w, toTuple x = .ok w := by
          intro x hx
          obtain ⟨i, hi, rfl⟩ := List.getElem_of_mem hx
          exact (ih _ hx).1 (hsub i hi h)
        have h2 : ∃ ys, List.Forall₂ (fun x y => toTuple x = .ok y) xs ys := by
          clear ih hsub h
          induction xs with
          | nil => exact ⟨[], .nil⟩
          | cons x xs ih =>
            obtain ⟨y, hy⟩ := h1 x List.mem_cons_self
            obtain ⟨ys, hys⟩ := ih (fun x hx => h1 x (List.mem_cons_of_mem _ hx))
            exact ⟨y :: ys, .cons hy hys⟩
        obtain ⟨ys, hys⟩ := h2
        exact ⟨_, (toTuple_seq_ok k xs _).2 ⟨ys, rfl, hys⟩⟩
      · intro h
        have h1 : ∃ x ∈ xs, ¬ NoText x := by
          by_contra hc
          push Not at hc
          apply h
          intro path s hp
          cases path with
          | nil => simp [pyAt] at hp
          | cons i is =>
            rw [pyAt] at hp
            by_cases hi : i < xs.length
            · rw [List.getElem?_eq_getElem hi] at hp
              exact hc _ (List.getElem_mem hi) is s hp
            · rw [List.getElem?_eq_none (by omega)] at hp
              simp at hp
        have h2 : xs.mapM toTuple = .error "RecursionError" := by
          clear hsub h
          induction xs with
          | nil => simp at h1
          | cons x xs ihx =>
            rw [List.mapM_cons]
            by_cases hx : NoText x
            · obtain ⟨y, hy⟩ := (ih x List.mem_cons_self).1 hx
              rw [hy, ihx (fun x hx => ih x (List.mem_cons_of_mem _ hx)) (by
                obtain ⟨z, hz, hzn⟩ := h1
                rcases List.mem_cons.1 hz with rfl | hz
                · exact absurd hx hzn
                · exact ⟨z, hz, hzn⟩)]
              rfl
            · rw [(ih x List.mem_cons_self).2 hx]
              rfl
        rw [toTuple_seq, h2]
        rfl
  refine ⟨⟨fun ⟨w, hw⟩ => ?_, key.1⟩, key.2⟩
  by_contra hc
  rw [key.2 hc] at hw
  exact error_ne_ok hw

/-- C107: what is frozen stays as it is. -/
theorem C107_idempotent (v w : PyVal) (h : toTuple v = .ok w) : toTuple w = .ok w := by
  induction v using PyVal.induct generalizing w with
  | hn v => rw [toTuple] at h; rw [← Except.ok.inj h, toTuple]
  | hs s =>
    cases s with
    | nil => rw [toTuple] at h; rw [← Except.ok.inj h, toTuple_seq]; rfl
    | cons c s => rw [toTuple] at h; exact error_ne_ok h
  | hq k xs ih =>
    obtain ⟨ys, rfl, hys⟩ := (toTuple_seq_ok k xs w).1 h
    refine (toTuple_seq_ok _ _ _).2 ⟨ys, rfl, ?_⟩
    clear h
    induction hys with
    | nil => exact .nil
    | cons hx _ ihx => exact .cons (ih _ List.mem_cons_self _ hx) (ihx (fun x hx => ih x (List.mem_cons_of_mem _ hx)))

/-- Non-vacuity: an array in a list becomes a tuple of tuples; a name among the numbers raises. -/
example : toTuple (.seq .list [.num 7, .seq .array [.num 1, .num 2]]) =
      .ok (.seq .tuple [.num 7, .seq .tuple [.num 1, .num 2]]) ∧
    ¬ NoText (.seq .list [.num 7, .str ['q']]) := by
  constructor
  · simp [toTuple_seq, toTuple]
    rfl
  · intro h
    have := h [1] ['q'] rfl
    simp at this

/-! ## profile_jax_functions -/

/-- The effect of tasks that all return, in order. -/
def effects {σ α : Type} (tasks : List (Task σ α)) (w : σ) : σ := tasks.foldl (fun w f => (f w).2) w

/-- The results of tasks that all return: `none` otherwise. -/
def returns {σ α : Type} : List (Task σ α) → σ → Option (List α)
  | [], _ => some []
  | f :: fs, w => match (f w).1 with
    | .value r => (returns fs (f w).2).map (r :: ·)
    | _ => none

theorem launch_returns {σ α : Type} (tasks : List (Task σ α)) (acc rs : List α) (w : σ)
    (h : returns tasks w = some rs) : launch tasks acc w = (.value (acc ++ rs), effects tasks w) := by
  induction tasks generalizing acc rs w with
  | nil =>
    rw [returns] at h
    rw [← Option.some.inj h, List.append_nil]
    rfl
  | cons f fs ih =>
    rw [returns] at h
    rw [launch]
    rcases hf : f w with ⟨o, w'⟩
    rw [hf] at h
    cases o with
    | value r =>
      simp only [Option.map_eq_some_iff] at h
      obtain ⟨rs', h1, rfl⟩ := h
      simp only
      rw [ih _ _ _ h1, List.append_assoc]
      show _ = (_, effects fs (f w).2)
      rw [hf]
      rfl
    | exception t m => simp at h
    | baseException t => simp at h

theorem launch_stops {σ α : Type} (before after : List (Task σ α)) (f : Task σ α) (acc rs : List α) (w : σ)
    (h : returns before w = some rs) :
    launch (before ++ f :: after) acc w = launch (f :: after) (acc ++ rs) (effects before w) := by
  induction before generalizing acc rs w with
  | nil =>
    rw [returns] at h
    rw [← Option.some.inj h, List.append_nil]
    rfl
  | cons g gs ih =>
    rw [returns] at h
    rw [List.cons_append, launch]
    rcases hg : g w with ⟨o, w'⟩
    rw [hg] at h
    cases o with
    | value r =>
      simp only [Option.map_eq_some_iff] at h
      obtain ⟨rs', h1, rfl⟩ := h
      simp only
      rw [ih _ _ _ h1, List.append_assoc]
      show _ = launch _ _ (effects gs (g w).2)
      rw [hg]
      rfl
    | exception t m => simp at h
    | baseException t => simp at h

/-- C108, the claim is false: as the module is published, with the name `client` bound to nothing, every call ends in
a `NameError`, whatever the tasks. -/
theorem C108_negation {σ α : Type} (block : List α → Task σ Unit) (tasks : List (Task σ α)) (name : String) (w : σ) :
    (profileJaxFunctions .unbound block tasks name w).2.1 = .exception "NameError" "name 'client' is not defined" := rfl

/-- C108, what holds: the tasks are still run, each once and in the order given, and waited for when there are any;
without exceptions one line is printed. With `client` bound to a false value the call returns. -/
theorem C108_runs_partial {σ α : Type} (client : Client)
    (block : List α → Task σ Unit) (tasks : List (Task σ α)) (name : String) (w : σ) (rs : List α)
    (h : returns tasks w = some rs) (hb : rs ≠ [] → (block rs (effects tasks w)).1 = .value ()) :
    profileJaxFunctions client block tasks name w =
      ([name ++ ": http://xprof/?session_id=None"],
        (match client with
          | .unbound => .exception "NameError" "name 'client' is not defined"
          | _ => .value ()),
        if rs = [] then effects tasks w else (block rs (effects tasks w)).2) := by
  unfold profileJaxFunctions tryBlock
  rw [launch_returns tasks [] rs w h, List.nil_append]
  cases rs with
  | nil => cases client with
    | unbound => rfl
    | falsy => rfl
  | cons r rs =>
    have hb := hb (List.cons_ne_nil _ _)
    rw [if_neg (List.cons_ne_nil _ _)]
    simp only [List.isEmpty_cons]
    rcases hbl : block (r :: rs) (effects tasks w) with ⟨o, w'⟩
    rw [hbl] at hb
    simp only at hb
    subst hb
    cases client with
    | unbound => rfl
    | falsy => rfl

/-- C108, what holds: the first exception of a task ends the run; its type and text are printed, and no later task is
run. With `client` bound to a false value the exception is dropped and the call returns. -/
theorem C108_first_exception_partial {σ α : Type} (client : Client)
    (block : List α → Task σ Unit) (before after : List (Task σ α)) (f : Task σ α) (name : String) (w : σ)
    (h : (returns before w).isSome) (type text : String) (w' : σ)
    (hf : f (effects before w) = (.exception type text, w')) :
    profileJaxFunctions client block (before ++ f :: after) name w =
      (["Error type: " ++ type, "Error details: " ++ text, "Xprof session ended due to error.",
          name ++ ": http://xprof/?session_id=None"],
        (match client with
          | .unbound => .exception "NameError" "name 'client' is not defined"
          | _ => .value ()), w') := by
  obtain ⟨rs, h⟩ := Option.isSome_iff_exists.1 h
  unfold profileJaxFunctions tryBlock
  rw [launch_stops before after f [] rs w h, launch, hf]
  cases client with
  | unbound => rfl
  | falsy => rfl

/-- C108, what holds: an interrupt ends the run without a report; with `client` bound to a false value it reaches the
caller, as published a `NameError` takes its place. -/
theorem C108_interrupt_partial {σ α : Type} (client : Client)
    (block : List α → Task σ Unit) (before after : List (Task σ α)) (f : Task σ α) (name : String) (w : σ)
    (h : (returns before w).isSome) (type : String) (w' : σ)
    (hf : f (effects before w) = (.baseException type, w')) :
    profileJaxFunctions client block (before ++ f :: after) name w =
      ([name ++ ": http://xprof/?session_id=None"],
        (match client with
          | .unbound => .exception "NameError" "name 'client' is not defined"
          | _ => .baseException type), w') := by
  obtain ⟨rs, h⟩ := Option.isSome_iff_exists.1 h
  unfold profileJaxFunctions tryBlock
  rw [launch_stops before after f [] rs w h, launch, hf]
  cases client with
  | unbound => rfl
  | falsy => rfl

/-- The example's tasks: append a number to a log, or fail. -/
def logTask (i : Nat) : Task (List Nat) Nat := fun w => (.value i, w ++ [i])

/-- Non-vacuity: two tasks run, the third fails, the fourth is not run. -/
example : profileJaxFunctions .unbound (fun _ w => (.value (), w ++ [99]))
      ([logTask 1, logTask 2] ++ (fun w => (.exception "ValueError" "bad", w ++ [3])) :: [logTask 4]) "p" [] =
    (["Error type: ValueError", "Error details: bad", "Xprof session ended due to error.",
      "p: http://xprof/?session_id=None"], .exception "NameError" "name 'client' is not defined", [1, 2, 3]) :=
  C108_first_exception_partial .unbound _ _ _ _ _ _ rfl "ValueError" "bad" [1, 2, 3] rfl

example : profileJaxFunctions .falsy (fun _ w => (.value (), w ++ [99])) [logTask 1, logTask 2] "p" [] =
    (["p: http://xprof/?session_id=None"], .value (), [1, 2, 99]) :=
  C108_runs_partial .falsy _ _ _ _ [1, 2] rfl (fun _ => rfl)

example : profileJaxFunctions .unbound (fun _ w => (.value (), w ++ [99]))
      ([logTask 1] ++ (fun w => (.baseException "KeyboardInterrupt", w)) :: [logTask 4]) "p" [] =
    (["p: http://xprof/?session_id=None"], .exception "NameError" "name 'client' is not defined", [1]) :=
  C108_interrupt_partial .unbound _ _ _ _ _ _ rfl "KeyboardInterrupt" [1] rfl

end Verif.Props
