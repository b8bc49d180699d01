import Mathlib.Algebra.Order.Field.Rat

/-!
# Stored parameter values

Follows `/repo/pywr-core/src/state/mod.rs`, lines 191-273 (`MultiValue`, `ParameterValues`) and 786-1139 (`State`). Here NaN
matters, so `f64` is a type with NaN and the infinities. Hash maps are association lists.
-/

namespace Verif.Values

/-- A double, with its special values. -/
inductive F64
  | num (q : ℚ)
  | nan
  | inf (negative : Bool)
  deriving DecidableEq, Repr

/-- `f64::is_nan`. -/
def F64.isNan : F64 → Bool
  | .nan => true
  | _ => false

/-- `MultiValue`, lines 191-195. -/
structure MultiValue where
  values : List (String × F64)
  indices : List (String × Nat)
  deriving DecidableEq, Repr

/-- `has_nan`, lines 238-240. -/
def MultiValue.hasNan (m : MultiValue) : Bool := m.values.any fun p => p.2.isNan

/-- `get_value`, lines 229-231. -/
def MultiValue.getValue (m : MultiValue) (key : String) : Option F64 := m.values.lookup key

/-- `ParameterValues`, lines 244-249. -/
structure ParameterValues where
  values : List F64
  indices : List Nat
  multi : List MultiValue
  deriving DecidableEq, Repr

/-- `ParameterValues::new`, lines 252-258. -/
def ParameterValues.new (nv ni nm : Nat) : ParameterValues :=
  ⟨List.replicate nv (.num 0), List.replicate ni 0, List.replicate nm ⟨[], []⟩⟩

/-- `State`, lines 786-799, without the network part. -/
structure State where
  const : ParameterValues
  simple : ParameterValues
  before : ParameterValues
  after : ParameterValues
  transfers : List F64
  deriving DecidableEq, Repr

/-- `SetStateError`, lines 767-773. -/
inductive SetError | indexNotFound | nanValue
  deriving DecidableEq, Repr

/-- The four groups of parameter values. -/
inductive Bank | const | simple | before | after
  deriving DecidableEq, Repr

/-- The values of one group. -/
def State.bank (s : State) : Bank → ParameterValues
  | .const => s.const
  | .simple => s.simple
  | .before => s.before
  | .after => s.after

/-- Write access to the values of one group. -/
def State.setBank (s : State) (b : Bank) (p : ParameterValues) : State :=
  match b with
  | .const => { s with const := p }
  | .simple => { s with simple := p }
  | .before => { s with before := p }
  | .after => { s with after := p }

/-- Result of a `&mut self` setter: the returned value and the state it leaves. -/
abbrev Outcome := Except SetError Unit × State

/-- `set_general_parameter_f64_before`, `..._after`, `set_simple_parameter_f64`, `set_const_parameter_f64`,
lines 825-901: the four functions are the same up to the group. -/
def State.setF64 (s : State) (b : Bank) (i : Nat) (v : F64) : Outcome :=
  if i < (s.bank b).values.length then
    if v.isNan then (.error .nanValue, s)
    else (.ok (), s.setBank b { s.bank b with values := (s.bank b).values.set i v })
  else (.error .indexNotFound, s)

/-- The four `u64` setters, lines 915-977. -/
def State.setU64 (s : State) (b : Bank) (i : Nat) (v : Nat) : Outcome :=
  if i < (s.bank b).indices.length then
    (.ok (), s.setBank b { s.bank b with indices := (s.bank b).indices.set i v })
  else (.error .indexNotFound, s)

/-- The four multi-value setters, lines 997-1072. -/
def State.setMulti (s : State) (b : Bank) (i : Nat) (v : MultiValue) : Outcome :=
  if i < (s.bank b).multi.length then
    if v.hasNan then (.error .nanValue, s)
    else (.ok (), s.setBank b { s.bank b with multi := (s.bank b).multi.set i v })
  else (.error .indexNotFound, s)

/-- `set_inter_network_transfer_value`, lines 1127-1139: NaN is not checked. -/
def State.setTransfer (s : State) (i : Nat) (v : F64) : Outcome :=
  if i < s.transfers.length then (.ok (), { s with transfers := s.transfers.set i v }) else (.error .indexNotFound, s)

/-- The getters, lines 811-821, 903-913, 979-995 and the `get_*` of `SimpleParameterValues`/`ConstParameterValues`. -/
def State.getF64 (s : State) (b : Bank) (i : Nat) : Option F64 := (s.bank b).values[i]?

/-- See `getF64`. -/
def State.getU64 (s : State) (b : Bank) (i : Nat) : Option Nat := (s.bank b).indices[i]?

/-- See `getF64`. -/
def State.getMulti (s : State) (b : Bank) (i : Nat) : Option MultiValue := (s.bank b).multi[i]?

/-- `get_inter_network_transfer_value`, lines 1120-1125. -/
def State.getTransfer (s : State) (i : Nat) : Option F64 := s.transfers[i]?

/-- One attempted write. -/
inductive Write
  | f64 (b : Bank) (i : Nat) (v : F64)
  | u64 (b : Bank) (i : Nat) (v : Nat)
  | multi (b : Bank) (i : Nat) (v : MultiValue)
  | transfer (i : Nat) (v : F64)
  deriving DecidableEq, Repr

/-- Perform one write. -/
def State.write (s : State) : Write → Outcome
  | .f64 b i v => s.setF64 b i v
  | .u64 b i v => s.setU64 b i v
  | .multi b i v => s.setMulti b i v
  | .transfer i v => s.setTransfer i v

/-- Attempt writes one after the other, ignoring the returned results. -/
def State.writeAll (s : State) : List Write → State
  | [] => s
  | w :: ws => (s.write w).2.writeAll ws

end Verif.Values
