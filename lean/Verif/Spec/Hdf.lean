import Verif.Model.Hdf

/-!
# What an HDF5 file of a run is

A reader finds an object by its path.
-/

namespace Verif.Hdf

open Verif.Time

variable {σ : Type}

/-- There is one object with the path in the file. -/
def Reads (f : File) (p : Path) (o : Obj) : Prop := (p, o) ∈ f ∧ ∀ o', (p, o') ∈ f → o' = o

/-- The links that a name is followed along: its parts between slashes, without those that are empty or a dot. -/
inductive Follows : List Char → Path → Prop
  | last (part : List Char) (h : '/' ∉ part) (h' : part ≠ [] ∧ part ≠ ['.']) : Follows part [part]
  | stay (part : List Char) (h : part = [] ∨ part = ['.']) : Follows part []
  | part (part rest : List Char) (p : Path) (h : '/' ∉ part) (h' : part ≠ [] ∧ part ≠ ['.']) (hr : Follows rest p) :
    Follows (part ++ '/' :: rest) (part :: p)
  | skip (part rest : List Char) (p : Path) (h : part = [] ∨ part = ['.']) (hr : Follows rest p) : Follows (part ++ '/' :: rest) p

/-- Where the values of a metric are. -/
def Metric.path (m : Metric σ) : Path := links m.name ++ links m.attr

/-- The paths of the tables. -/
def tables : List Path := [["scenarios".toList, "groups".toList], ["scenarios".toList, "indices".toList], ["time".toList]]

/-- The row of a time step. -/
def Stamp.Tells (s : Stamp) (t : Timestep) : Prop :=
  s.index = t.index ∧ s.year = t.date.date.year ∧ s.month = t.date.date.month ∧ s.day = t.date.date.day ∧
    s.minute < 60 ∧ s.second < 60 ∧ s.hour * 3600 + s.minute * 60 + s.second = t.date.ns / 1000000000

/-- The file of a run over `history`, the time steps with the states of the scenarios at their ends. -/
structure FileOf (d : Scenario.Domain) (set : Set σ) (history : List (Timestep × List σ)) (f : File) : Prop where
  times : ∃ rows, Reads f ["time".toList] (.times rows) ∧ List.Forall₂ (fun r x => Stamp.Tells r x.1) rows history
  groups : Reads f ["scenarios".toList, "groups".toList] (.groups (d.groups.map fun g => (g.name, g.size)))
  scenarios : Reads f ["scenarios".toList, "indices".toList]
    (.scenarios (d.indices.map fun s => (s.simulationId, s.simulationIndices, "-".intercalate s.labels)))
  values : ∀ m ∈ set.metrics, Reads f m.path (.values (history.map fun x => x.2.map m.get) m.ty m.subType)
  only : ∀ p o, (p, o) ∈ f → o = .group ∨ p ∈ tables ∨ ∃ m ∈ set.metrics, p = m.path

/-- Neither path leads to or through the other. -/
def Clear (p q : Path) : Prop := ¬ p <+: q ∧ ¬ q <+: p

/-- The names of the metrics of a set can be written to a file. -/
structure Set.Fits (set : Set σ) : Prop where
  names : ∀ m ∈ set.metrics, m.name ≠ "" ∧ links m.attr ≠ []
  clear : (tables ++ set.metrics.map Metric.path).Pairwise Clear

/-- The steps are those of a time domain and every scenario has a state. -/
def Regular (d : Scenario.Domain) (history : List (Timestep × List σ)) : Prop :=
  ∀ (k : Nat) (x : Timestep × List σ), history[k]? = some x → x.1.index = k ∧ x.2.length = d.indices.length

end Verif.Hdf
