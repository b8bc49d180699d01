import Verif.Props.SchemaReports
import Verif.Props.SchemaLicencesCases

/-! # Cases for C71 and C72 -/

namespace Verif.Schema

open Verif.Topology (Name EdgeDecl)
open Verif.Solver (Metric AtLeast AtMost)

/-- An input feeds a piecewise storage of 60 cut at a quarter and a half, a tank, and through a link and a loss link two outputs. -/
def pieceNet : Net :=
  { nodes := [⟨"src", .input ⟨none, none, none⟩, []⟩,
      ⟨"pieces", .pieceStore ⟨.const 60, some (.const 35), none, [⟨.const (1/4), some (.const (-1))⟩, ⟨.const (1/2), none⟩], .proportional (2/3)⟩, []⟩,
      ⟨"tank", .storage ⟨some (.const 30), none, none, .absolute 10⟩, []⟩,
      ⟨"link", .link ⟨none, none, none, some ⟨some (.const (-5)), some (.const 4)⟩, none⟩, []⟩,
      ⟨"town", .output ⟨some (.const 40), none, none⟩, []⟩,
      ⟨"sea", .output ⟨none, none, none⟩, []⟩]
    virtualNodes := [⟨"stock", .aggregatedStorage ["pieces", "tank"], []⟩,
      ⟨"supply", .aggregated [⟨"link", none⟩, ⟨"src", none⟩] (some (.const 30)) none none, []⟩,
      ⟨"demand", .aggregated [⟨"town", none⟩, ⟨"sea", none⟩] (some (.const 20)) none none, []⟩]
    edges := [⟨"src", "pieces", none, none⟩, ⟨"src", "tank", none, none⟩, ⟨"src", "link", none, none⟩, ⟨"link", "town", none, none⟩,
      ⟨"pieces", "sea", none, none⟩, ⟨"tank", "sea", none, none⟩] }

/-- The numbers of the parameters of the stores. -/
def pieceP : ParamNo := fun _ p _ =>
  ["store-00-max-volume", "store-00-prior-max-volume", "store-00-min-volume", "store-01-max-volume", "store-01-prior-max-volume",
    "store-01-min-volume", "store-02-max-volume", "store-02-prior-max-volume", "store-02-min-volume"].idxOf p

def pieceFlows : Nat → ℚ := flows (fragOf pieceP pieceNet)
  [(⟨("src", none), ("pieces", some "store-00")⟩, 2), (⟨("src", none), ("pieces", some "store-01")⟩, 6),
   (⟨("pieces", some "store-01"), ("pieces", some "store-02")⟩, 5), (⟨("pieces", some "store-00"), ("sea", none)⟩, 2),
   (⟨("pieces", some "store-01"), ("sea", none)⟩, 1), (⟨("src", none), ("tank", none)⟩, 3), (⟨("tank", none), ("sea", none)⟩, 4),
   (⟨("src", none), ("link", none)⟩, 2), (⟨("src", none), ("link", some "soft_min")⟩, 4),
   (⟨("link", none), ("town", none)⟩, 2), (⟨("link", some "soft_min"), ("town", none)⟩, 4)]

/-- Core nodes: "src", the three stores, "tank". The stores hold 15, 15 and 10. -/
def pieceSt : Solver.StepState :=
  ⟨fun k => [some 15, some 0, some 15, some 15, some 15, some 15, some 30, some 30, some 5][k]?.join,
    fun i => [none, some 15, some 15, some 10, some 10][i]?.join, fun _ => false, fun _ => none, 1⟩

theorem pieceNet_built : Built pieceP pieceNet (fragOf pieceP pieceNet) (coreOf pieceP pieceNet) := builtCheck_ok (by decide +kernel)

theorem pieceNet_allowed : Solver.Allowed (coreOf pieceP pieceNet).model pieceSt pieceFlows := allowedCheck_ok (by decide +kernel)

theorem pieceNet_computed : Computed pieceP (fragOf pieceP pieceNet) pieceSt.metric := by
  intro q hq v hv
  have hall : (fragOf pieceP pieceNet).params.all (fun q => match q.2.2.value pieceSt.metric with
      | some v => decide (pieceSt.metric (pieceP q.1 q.2.1 none) = v)
      | none => true) = true := by decide +kernel
  have := List.all_eq_true.1 hall q hq
  simpa [hv] using this

theorem pieceNet_shares : List.Pairwise (· ≤ ·) ((0 : ℚ) :: [1/4, 1/2] ++ [1]) := by decide +kernel

example := C71_sizes pieceNet_built pieceNet_computed (n := pieceNet.at 1) (by decide +kernel) rfl (t := 60) rfl (cs := [1/4, 1/2]) rfl
example := C71_least pieceNet_built pieceNet_computed (n := pieceNet.at 1) (by decide +kernel) rfl (t := 60) rfl (cs := [1/4, 1/2]) rfl
  (by decide +kernel) pieceNet_shares rfl (v := 35) rfl (by decide +kernel)
example := C71_initial pieceNet_built pieceNet_computed (n := pieceNet.at 1) (by decide +kernel) rfl (t := 60) rfl (cs := [1/4, 1/2]) rfl
  (by decide +kernel) pieceNet_shares (v := 40) (.inl ⟨2/3, rfl, by decide +kernel⟩) (by decide +kernel)
example := C71_range pieceNet_built pieceNet_allowed (n := pieceNet.at 1) (by decide +kernel) rfl pieceNet_computed (t := 60) rfl
  (cs := [1/4, 1/2]) rfl

example : cut 60 [1/4, 1/2] = [15, 15, 30] ∧ pour 35 (cut 60 [1/4, 1/2]) = [15, 15, 5] ∧ pour 40 (cut 60 [1/4, 1/2]) = [15, 15, 10] := by
  decide +kernel

/-- Largest volumes of the stores and the tank. -/
def pieceMaxima : Nat → Option ℚ := fun i => [none, some 15, some 15, some 30, some 30][i]?.join

theorem pieceNet_total (x : String) (g : Nat → Option ℚ) (vs : List ℚ) (h : ((coreNodes (fragOf pieceP pieceNet) x).filter (fun d => d.kind = .storage)).map
    (fun d => g (((fragOf pieceP pieceNet).nodes.map (·.name)).idxOf d.name)) = vs.map some) : TotalIs (fragOf pieceP pieceNet) g x vs.sum :=
  ⟨vs, h, rfl⟩

example := C71_volume pieceNet_built (n := pieceNet.at 1) (by decide +kernel) rfl
  (pieceNet_total "pieces" pieceSt.volume [15, 15, 10] (by decide +kernel)) (pieceNet_total "pieces" pieceMaxima [15, 15, 30] (by decide +kernel))

example := C72_volume pieceNet_built (v := pieceNet.virtualAt 0) (by decide +kernel) rfl
  (.cons (pieceNet_total "pieces" pieceSt.volume [15, 15, 10] (by decide +kernel)) (.cons (pieceNet_total "tank" pieceSt.volume [10] (by decide +kernel)) .nil))
  (.cons (pieceNet_total "pieces" pieceMaxima [15, 15, 30] (by decide +kernel)) (.cons (pieceNet_total "tank" pieceMaxima [30] (by decide +kernel)) .nil))

/-- A property of all nodes that a reference may mean. -/
theorem pieceNet_refs {refs : List Ref} {Q : Ref → SNode → Bool}
    (h : refs.all (fun r => pieceNet.nodes.all (fun n => !(decide (n.name = r.name)) || Q r n)) = true) :
    ∀ r ∈ refs, ∀ n ∈ pieceNet.nodes, n.name = r.name → Q r n = true := by
  intro r hr n hn he
  have := List.all_eq_true.1 (List.all_eq_true.1 h r hr) n hn
  simpa [he] using this

example := C72_outflow pieceNet_built pieceNet_allowed (v := pieceNet.virtualAt 1) (by decide +kernel) rfl
  (fun r hr n hn b he hb => by
    have := pieceNet_refs (refs := [⟨"link", none⟩, ⟨"src", none⟩]) (Q := fun _ n => match n.body with | .river _ => false | _ => true)
      (by decide +kernel) r hr n hn he
    simp [hb] at this)
  (fun r hr n hn he => by
    have := pieceNet_refs (refs := [⟨"link", none⟩, ⟨"src", none⟩]) (Q := fun r n => !(n.body.component r.component).Enters)
      (by decide +kernel) r hr n hn he
    simpa using this)

example := C72_inflow pieceNet_built pieceNet_allowed (v := pieceNet.virtualAt 2) (by decide +kernel) rfl
  (pieceNet_refs (refs := [⟨"town", none⟩, ⟨"sea", none⟩]) (Q := fun r n => (n.body.component r.component).Enters) (by decide +kernel))

/-- The aggregated node "demand" limits the 13 its outputs receive and reports 0. -/
example : aggReport (fragOf pieceP pieceNet) (coreOf pieceP pieceNet) pieceFlows ("demand", none) none = .ok (some 0) ∧
    received pieceNet (fragOf pieceP pieceNet) pieceFlows "town" + received pieceNet (fragOf pieceP pieceNet) pieceFlows "sea" = 13 :=
  ⟨C72_outputs_refuted pieceNet_built _ (v := pieceNet.virtualAt 2) (by decide +kernel) rfl (fun r hr n hn he => by
    have := pieceNet_refs (refs := [⟨"town", none⟩, ⟨"sea", none⟩]) (Q := fun _ n => match n.body with | .output _ => true | _ => false)
      (by decide +kernel) r hr n hn he
    cases hb : n.body <;> simp [hb] at this
    exact ⟨_, rfl⟩), by decide +kernel⟩

end Verif.Schema
