import Verif.Model.Document
import Verif.Model.Multi

/-!
# Documents of several networks

`MultiNetworkModelSchema::create_model_builder` (`pywr-schema/src/model.rs:826-977`) and the run of the model built from it
(`pywr-core/src/models/multi.rs`), put together from `Model/Document.lean` and `Model/Multi.lean`.

Simplifications, besides those of the parts:
* one scenario; networks are given inline;
* the networks are made ready one after another, each with the metrics that other networks ask of it, where the code loads them all, then
  these metrics, and then builds them. Which error is reported if there are several may differ;
* recorders are read at the end of the run only;
* the metrics that are transferred in the first step from a network that comes later are read before this network has done anything. What
  metrics show then is left as it is in `Model/Document.lean`, which is about what they show in steps: maximum volumes are zero here.
-/

namespace Verif.EndToEnd

open Verif.State Verif.Solver Verif.Time Verif.Simulation
open Verif.Params Verif.Kinds
open Verif.Schema (Frag Core)

/-- `MultiNetworkTransfer`, `pywr-schema/src/model.rs:648-655`. -/
structure Link where
  name : String
  source : String
  metric : Load.SMetric
  initial : Option ℚ

/-- `MultiNetworkEntry`, `pywr-schema/src/model.rs:657-662`, with what there is besides the document. -/
structure Part where
  name : String
  document : Document
  setting : Setting
  links : List Link

/-- `MultiNetworkModelSchema`, `pywr-schema/src/model.rs:779-786`. All networks have the same steps. -/
structure MultiDocument where
  time : Nat → Timestep
  parts : List Part

/-- The metrics that are asked of a network, lines 913-957. -/
def MultiDocument.wanted (M : MultiDocument) (name : String) : List Load.SMetric :=
  ((M.parts.flatMap Part.links).filter (fun l => l.source = name)).map Link.metric

/-- The document of a network, with the metrics that are asked of it. -/
def MultiDocument.document (M : MultiDocument) (P : Part) : Document :=
  { P.document with doc := { P.document.doc with links := M.wanted P.name } }

/-- The setting of a network, with its transfers and what they bring. -/
def MultiDocument.setting (M : MultiDocument) (P : Part) (given : Nat → List ℚ) : Setting :=
  { P.setting with time := M.time, transfers := P.links.map Link.name, given := given }

/-- A network that is loaded, built and set up: `Network` and its part of `MultiNetworkModelState`
(`pywr-core/src/models/multi.rs:156-161`). `links` are the metrics for other networks. -/
structure Ready where
  document : Document
  setting : Setting
  F : Frag
  C : Core
  state : SimState
  uses : List (Source Area)
  outputs : List (Source Area)
  links : List (Source Area)
  params : List (Param Area)
  net : Network
  outputReads : List Read
  linkReads : List Read
  first : Scene Val Inner Area

/-- What a network calculates, given what others transfer to it. -/
def calcsOf (D : Document) (E : Setting) (F : Frag) (C : Core) (uses : List (Source Area)) (params : List (Param Area)) :
    Calcs Val Inner Area :=
  calcs (D.args E F C).env params (Load.preparing (start (D.sim F C) E) (Load.pick (volumeIds F) uses)) (Load.solving (allocate (D.sim F C) E) uses)

/-- Why a network is not ready. -/
inductive Obstacle
  | notCompiled (e : Schema.Err)
  | notBuilt (e : Schema.BuildErr)
  | leftOut
  | noSolver (e : SetupErr)
  | notLoaded (e : Load.Err)
  | unresolved
  | notStarted

/-- A network is loaded (`pywr-schema/src/model.rs:857-911`), built (`pywr-core/src/models/multi.rs:1012-1079`) and set up
(`multi.rs:379-425`). -/
def Document.ready (D : Document) (E : Setting) : Except Obstacle Ready :=
  match D.net.compile D.numbers with
  | .error e => .error (.notCompiled e)
  | .ok F =>
    match F.build with
    | .error e => .error (.notBuilt e)
    | .ok C =>
      if D.listed F then
        match (D.sim F C).initial E.big E.negBig with
        | .error e => .error (.noSolver e)
        | .ok s =>
          match D.doc.loaded (D.args E F C) with
          | .error e => .error (.notLoaded e)
          | .ok ((ss, os, ls), ps) =>
            match buildNetwork (ps.length + 1) (builders ps) (Load.refsOf ((Load.pick (volumeIds F) ss).map Prod.snd)) (Load.refsOf ss) with
            | none => .error .unresolved
            | some net =>
              match resolveAll net.params.maps ((Load.refsOf os).map fun r => ⟨r, .after⟩),
                  resolveAll net.params.maps ((Load.refsOf ls).map fun r => ⟨r, .after⟩) with
              | .ok outs, .ok reads =>
                match startScene (calcsOf D E F C ss ps) net (blank (D.sim F C) E s) with
                | none => .error .notStarted
                | some x => .ok ⟨D, E, F, C, s, ss, os, ls, ps, net, outs, reads, x⟩
              | _, _ => .error .unresolved
      else .error .leftOut

/-- `Network::step` of a network with the values that were transferred to it. -/
def Ready.step (R : Ready) (t : Nat) (l : List (Multi.Scenario (Scene Val Inner Area))) : Option (List (Scene Val Inner Area)) :=
  allOf (fun s => stepScene (calcsOf R.document { R.setting with given := fun _ => s.transfers } R.F R.C R.uses R.params) R.net t s.inner) l

/-- The value of a metric for another network, `pywr-core/src/models/multi.rs:1149-1156`. -/
def Ready.value (R : Ready) (i : Nat) (s : Multi.Scenario (Scene Val Inner Area)) : Option ℚ :=
  ((fetch (some s.inner.world) R.links (valuesOf s.inner.store R.linkReads))[i]?).join.map Val.num

/-- The values of the metric sets. -/
def Ready.results (R : Ready) (x : Scene Val Inner Area) : Option (List ℚ) :=
  (collect (fetch (some x.world) R.outputs (valuesOf x.store R.outputReads))).map fun xs => xs.map Val.num

/-- The networks are made ready in turn. -/
def MultiDocument.ready (M : MultiDocument) : List Part → Except Obstacle (List Ready)
  | [] => .ok []
  | P :: Ps =>
    match (M.document P).ready (M.setting P fun _ => []) with
    | .error e => .error e
    | .ok R =>
      match M.ready Ps with
      | .error e => .error e
      | .ok Rs => .ok (R :: Rs)

/-- The transfers to a network; `before` are those that come before them in the document. The metric of a transfer is one of those that
are asked of its network. -/
def transfersOf (before : List Link) : List Link → List (Multi.TransferDecl Ready (Scene Val Inner Area))
  | [] => []
  | l :: ls =>
    ⟨l.name, l.source, fun R s => R.value ((before.filter fun k => k.source = l.source).length) s, l.initial⟩ ::
      transfersOf (before ++ [l]) ls

/-- `MultiNetworkModelBuilder`, `pywr-schema/src/model.rs:959-975`. -/
def declsOf (before : List Link) : List Part → List Ready → List (Multi.Decl Ready (Scene Val Inner Area))
  | P :: Ps, R :: Rs => ⟨P.name, R, transfersOf before P.links⟩ :: declsOf (before ++ P.links) Ps Rs
  | _, _ => []

/-- How a document of several networks ends. -/
inductive MEnding
  | notReady (e : Obstacle)
  | notLinked (e : Multi.BuildError)
  | failed (e : Multi.StepError)
  | noResults
  | done (results : List (List ℚ))

/-- The state of each network before the first step, `pywr-core/src/models/multi.rs:395-410`. -/
def starts (Ps : List Part) (Rs : List Ready) : List (List (Multi.Scenario (Scene Val Inner Area))) :=
  List.zipWith (fun P R => [⟨R.first, List.replicate P.links.length 0⟩]) Ps Rs

/-- The values of the metric sets of one network at the end. -/
def resultsOf (R : Ready) (l : List (Multi.Scenario (Scene Val Inner Area))) : Option (List ℚ) :=
  match l with
  | s :: _ => R.results s.inner
  | [] => none

/-- A document of several networks is loaded, built and run for `n + 1` steps: the values of the metric sets of each network at the
end. -/
def MultiDocument.run (M : MultiDocument) (n : Nat) : MEnding :=
  match M.ready M.parts with
  | .error e => .notReady e
  | .ok Rs =>
    match Multi.build (declsOf [] M.parts Rs) with
    | .error e => .notLinked e
    | .ok entries =>
      match Multi.trace Ready.step entries 0 (List.range (n + 1)) (starts M.parts Rs) with
      | .error e => .failed e
      | .ok tr =>
        match allOf (fun p => resultsOf p.1 p.2) (List.zip Rs (tr.getLastD [])) with
        | none => .noResults
        | some res => .done res

end Verif.EndToEnd
