import Verif.Model.Variables
import Mathlib.Algebra.Order.Group.Unbundled.Abs

/-!
# What a user may expect of variable values

A record of the last values accepted per parameter and scenario, without internal states.
-/

namespace Verif.Variables

/-- The last accepted values of one parameter in one scenario. -/
structure Last where
  f : Option (List ℚ)
  u : Option (List Nat)

/-- `y` is the point of the interval nearest to `x`; there is none if the interval is empty. -/
def Nearest (lo hi x y : ℚ) : Prop := (lo ≤ y ∧ y ≤ hi) ∧ ∀ z, lo ≤ z → z ≤ hi → |x - y| ≤ |x - z|

/-- What an activation function makes of a value. -/
def Activated : Activation → ℚ → ℚ → Prop
  | .unit min max, x, y => Nearest min max x y
  | .rectifier min max neg, x, y =>
    (x ≤ 0 → y = neg) ∧ (0 < x → x ≤ 1 → y = min + x * (max - min)) ∧ (1 < x → y = max)
  | .binaryStep pos neg, x, y => (x ≤ 0 → y = neg) ∧ (0 < x → y = pos)
  | .logistic f, x, y => ∃ v, Nearest (-6) 6 x v ∧ y = f v

/-- The range of an activation function. -/
def InRange : Activation → ℚ → Prop
  | .unit min max, y => min ≤ y ∧ y ≤ max
  | .rectifier min max neg, y => y = neg ∨ (min ⊓ max ≤ y ∧ y ≤ min ⊔ max)
  | .binaryStep pos neg, y => y = neg ∨ y = pos
  | .logistic f, y => ∃ v, -6 ≤ v ∧ v ≤ 6 ∧ y = f v

/-- What is recorded when values are set: one value, transformed as configured, or one per point. -/
inductive Accepted : Param → Vals → Config → Vals → Prop
  | constant (v x y : ℚ) (a : Activation) (h : Activated a x y) :
      Accepted (.constant v) (.f [x]) (.activation a) (.f [y])
  | rbfValues (points interp values cfg) (h : values.length = List.length points) :
      Accepted (.rbf points interp) (.f values) cfg (.f values)
  | rbfDays (points interp values cfg) (h : values.length = List.length points) :
      Accepted (.rbf points interp) (.u values) cfg (.u values)

/-- Which values the parameters take: constants and offsets real ones, profiles of radial basis functions
real ones for their values and integers for their days, and all others none. -/
inductive Takes : Param → Which → Prop
  | constant (v : ℚ) : Takes (.constant v) .f
  | offset (o : ℚ) : Takes (.offset o) .f
  | rbf (points interp) (w : Which) : Takes (.rbf points interp) w

/-- Whether the operation addresses parameter `i` in scenario `k`, and with what. -/
def Op.addresses (i k : Nat) : Op → Option (Vals × Config)
  | .all i' v cfg => if i' = i then some (v, cfg) else none
  | .one i' k' v cfg => if i' = i ∧ k' = k then some (v, cfg) else none

def Last.put (l : Last) : Vals → Last
  | .f values => { l with f := some values }
  | .u values => { l with u := some values }

/-- The record after a history. -/
inductive Recorded (p : Param) (i k : Nat) : List Op → Last → Prop
  | nil : Recorded p i k [] ⟨none, none⟩
  | other {ops l} (op : Op) (h : Recorded p i k ops l) (hop : op.addresses i k = none) :
      Recorded p i k (ops ++ [op]) l
  | rejected {ops l} (op : Op) (v : Vals) (cfg : Config) (h : Recorded p i k ops l)
      (hop : op.addresses i k = some (v, cfg)) (ha : ∀ v', ¬ Accepted p v cfg v') :
      Recorded p i k (ops ++ [op]) l
  | accepted {ops l} (op : Op) (v v' : Vals) (cfg : Config) (h : Recorded p i k ops l)
      (hop : op.addresses i k = some (v, cfg)) (ha : Accepted p v cfg v') :
      Recorded p i k (ops ++ [op]) (l.put v')

/-- The points of a profile after days and values have been replaced. -/
def points (ps : List (Nat × ℚ)) (l : Last) : List (Nat × ℚ) :=
  List.zip (l.u.getD (ps.map Prod.fst)) (l.f.getD (ps.map Prod.snd))

end Verif.Variables
