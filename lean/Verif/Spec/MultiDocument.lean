import Verif.Model.MultiDocument
import Verif.Spec.Document

/-!
# What happens in a run of a document of several networks

In terms of the document: each network does what its own document says, with the values that it is given by others.
-/

namespace Verif.EndToEnd

open Verif.Load (Story SNum)
open Verif.Schema (Frag Core)
open Verif.Solver (StepState)

/-- The names differ, and every link has another network of the document as its source. -/
structure MultiDocument.Joined (M : MultiDocument) : Prop where
  names : (M.parts.map Part.name).Nodup
  links : ∀ P ∈ M.parts, (P.links.map Link.name).Nodup
  sources : ∀ P ∈ M.parts, ∀ l ∈ P.links, l.source ≠ P.name ∧ ∃ Q ∈ M.parts, Q.name = l.source

/-- What happens in a network. -/
structure Tale where
  given : Nat → List ℚ
  F : Frag
  C : Core
  story : Story Area
  flow : Nat → Nat → ℚ
  state : Nat → StepState

/-- In the first `n` steps a network does what its document says with the values it is given, one for each of its links. -/
structure Tale.Of (T : Tale) (M : MultiDocument) (P : Part) (n : Nat) : Prop where
  built : Schema.Built P.document.numbers P.document.net T.F T.C
  happens : Happens (M.document P) (M.setting P T.given) T.F T.C n T.story T.flow T.state
  given : ∀ t < n, (T.given t).length = P.links.length

/-- A metric of a network has a value at the end of a step. -/
def Tale.Shows (T : Tale) (M : MultiDocument) (P : Part) (t : Nat) (m : Load.SMetric) (q : ℚ) : Prop :=
  SNum ((M.document P).args (M.setting P T.given) T.F T.C) T.story .late t none m q

variable {M : MultiDocument}

/-- The value of a link in step `t`, from network `a` to network `b`: in the first step the initial value, if there is one; otherwise what the
metric shows at the end of this step if the network comes earlier in the document, and at the end of the step before if it comes later. -/
def Linked (tale : Fin M.parts.length → Tale) (a b : Fin M.parts.length) (l : Link) (t : Nat) (q : ℚ) : Prop :=
  (∀ v, t = 0 → l.initial = some v → q = v) ∧
    (t ≠ 0 ∨ l.initial = none → (a < b → (tale a).Shows M M.parts[a] t l.metric q) ∧
      (b < a → ∀ s, t = s + 1 → (tale a).Shows M M.parts[a] s l.metric q))

/-- What happens in a document of several networks: `tale b` is what happens in network number `b`. -/
structure Together (n : Nat) (tale : Fin M.parts.length → Tale) : Prop where
  each : ∀ b, (tale b).Of M M.parts[b] n
  links : ∀ b, ∀ (j : Nat) l, M.parts[b].links[j]? = some l → ∃ a, a ≠ b ∧ M.parts[a].name = l.source ∧
    ∀ t < n, ∃ q, ((tale b).given t)[j]? = some q ∧ Linked tale a b l t q

end Verif.EndToEnd
