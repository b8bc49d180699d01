import Verif.Model.Python
import Mathlib.Data.List.Forall2

/-!
# What Python parameters should do

`Same` compares what a document says with what Python gets, `Sees` says what a call should be told, `Gives` what a returned object means as
a value, `Runs` what calls of several scenarios should return and `Told` what those of one scenario should. Nothing is kept between calls
besides the objects of the user and the arguments.
-/

namespace Verif.Python

/-- The object says the same as the document. -/
inductive Same : Json → Obj → Prop
  | null : Same .null .none
  | bool (b : Bool) : Same (.bool b) (.bool b)
  | int (n : Int) : Same (.int n) (.int n)
  | float (q : ℚ) : Same (.float q) (.float q)
  | str (s : String) : Same (.str s) (.str s)
  | arr {xs : List Json} {os : List Obj} : List.Forall₂ Same xs os → Same (.arr xs) (.list os)
  | obj {ks : List String} {xs : List Json} {os : List Obj} : List.Forall₂ Same xs os → Same (.obj ks xs) (.dict ks os)

mutual
/-- The whole numbers of a document are within 64 bits with sign. -/
def Fits : Json → Prop
  | .int n => -2 ^ 63 ≤ n ∧ n < 2 ^ 63
  | .arr xs => AllFit xs
  | .obj _ xs => AllFit xs
  | _ => True
/-- See `Fits`. -/
def AllFit : List Json → Prop
  | [] => True
  | x :: xs => Fits x ∧ AllFit xs
end

/-- A call is told the step, the scenario and under the declared keys the present values of all metrics and indices, and nothing else. -/
structure Sees (P : Common) (x : Ctx) (v : View) : Prop where
  step : v.step = x.step
  scenario : v.scenario = x.scenario
  metrics : ∀ k m, (k, m) ∈ P.metrics → ∃ q, x.metric m = some q ∧ v.metric k = some q
  indices : ∀ k m, (k, m) ∈ P.indices → ∃ n, x.index m = some n ∧ v.index k = some n
  noMetric : ∀ k, k ∉ P.metrics.map (·.1) → v.metric k = none
  noIndex : ∀ k, k ∉ P.indices.map (·.1) → v.index k = none

/-- A whole number; True is 1 and False is 0. -/
def Whole (o : Obj) (n : Int) : Prop := o = .int n ∨ (o = .bool true ∧ n = 1) ∨ (o = .bool false ∧ n = 0)

/-- A float. -/
def Obj.isFloat : Obj → Bool
  | .float _ => true
  | _ => false

/-- What a returned object means. Of a dictionary, floats are the values and whole numbers the indices. -/
def Gives : ReturnType → Obj → Value → Prop
  | .float, o, v => ∃ q, v = .number q ∧ (o = .float q ∨ ∃ n : Int, Whole o n ∧ q = n)
  | .int, o, v => ∃ n : Nat, v = .index n ∧ Whole o n ∧ n < 2 ^ 64
  | .dict, o, v => ∃ ks os vs is, o = .dict ks os ∧ v = .multi vs is ∧
      (∀ p ∈ ks.zip os, (∃ q, p.2 = .float q) ∨ ∃ n : Nat, Whole p.2 n ∧ n < 2 ^ 64) ∧
      vs = (ks.zip os).filterMap (fun p => match p.2 with | .float q => some (p.1, q) | _ => none) ∧
      List.Forall₂ (fun (p : String × Obj) (e : String × Nat) => e.1 = p.1 ∧ Whole p.2 e.2) ((ks.zip os).filter fun p => !p.2.isFloat) is

variable {O A : Type}

/-- Calls one after the other of the objects `os` with arguments `a`. -/
inductive Runs (C : Class O A) (P : Common) : (Nat → O) → A → List Event → List Value → Prop
  | done (os : Nat → O) (a : A) : Runs C P os a [] []
  | call {os : Nat → O} {a : A} {e : Event} {es : List Event} {view : View} {r : Obj} {o : O} {a' : A} {v : Value} {vs : List Value} :
      C.holds (os e.ctx.scenario) e.method = true → Sees P e.ctx view → C.call e.method (os e.ctx.scenario) a view = some (r, o, a') →
      Gives P.returns r v → Runs C P (Function.update os e.ctx.scenario o) a' es vs → Runs C P os a (e :: es) (v :: vs)

/-- Calls of one object, if arguments stay as they are. -/
inductive Told (C : Class O A) (P : Common) (a : A) : O → List Event → List Value → Prop
  | done (o : O) : Told C P a o [] []
  | call {o : O} {e : Event} {es : List Event} {view : View} {r : Obj} {o' : O} {a' : A} {v : Value} {vs : List Value} :
      C.holds o e.method = true → Sees P e.ctx view → C.call e.method o a view = some (r, o', a') →
      Gives P.returns r v → Told C P a o' es vs → Told C P a o (e :: es) (v :: vs)

/-- Calls of a function, with arguments that it may change. -/
inductive Applied (f : A → View → Option (Obj × A)) (P : Common) : A → List Ctx → List Value → Prop
  | done (a : A) : Applied f P a [] []
  | call {a : A} {x : Ctx} {xs : List Ctx} {view : View} {r : Obj} {a' : A} {v : Value} {vs : List Value} :
      Sees P x view → f a view = some (r, a') → Gives P.returns r v → Applied f P a' xs vs → Applied f P a (x :: xs) (v :: vs)

/-- The class leaves its arguments as they are. -/
structure Leaves (C : Class O A) : Prop where
  make : ∀ a o a', C.make a = some (o, a') → a' = a
  call : ∀ m o a view r o' a', C.call m o a view = some (r, o', a') → a' = a

/-- The keys are different, as those of a document are. -/
def Common.Keyed (P : Common) : Prop := (P.metrics.map (·.1)).Nodup ∧ (P.indices.map (·.1)).Nodup

/-- The calls of scenario `i` in a run of `n` steps: in each step `before`, if the class has it, and `after`, if the class has it. -/
def calls (C : Class O A) (i n : Nat) (now : Nat → Nat → Method → Ctx) : List Event :=
  (List.range n).flatMap fun t => ([Method.before, .after].filter C.has).map fun m => ⟨m, now t i m⟩

/-- The objects `os` of `k` scenarios are made one after the other; each finds the arguments as the one before left them. -/
def Made (C : Class O A) (k : Nat) (a : A) (os : Nat → O) (a' : A) : Prop :=
  ∃ content : Nat → A, content 0 = a ∧ content k = a' ∧ ∀ i < k, C.make (content i) = some (os i, content (i + 1))

/-- The part of a list that belongs to scenario `i`. -/
def own {α : Type} (i : Nat) (es : List Event) (xs : List α) : List α :=
  ((es.zip xs).filter fun p => p.1.ctx.scenario = i).map (·.2)

end Verif.Python
