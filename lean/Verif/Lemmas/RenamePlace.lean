import Verif.Lemmas.RenameRun

/-! # Renaming and metrics -/

namespace Verif.Rename

open Verif.Topology (Name EdgeDecl)
open Verif.Schema
open Verif.EndToEnd

variable {ρ : String → String}

theorem nodeAt_rename (hρ : Function.Injective ρ) (F : Frag) (n : Name) : nodeAt (frag ρ F) (nm ρ n) = nodeAt F n :=
  index?_rename hρ F n

theorem findIdx?_rename {α β : Type} [DecidableEq β] {r : β → β} (hr : Function.Injective r) (key : α → β) (g : α → α)
    (hg : ∀ a, key (g a) = r (key a)) (l : List α) (b : β) :
    (l.map g).findIdx? (fun d => key d = r b) = l.findIdx? (fun d => key d = b) := by
  rw [List.findIdx?_map]
  have : ((fun d => decide (key d = r b)) ∘ g) = fun d => decide (key d = b) := by
    funext a
    simp [hg, hr.eq_iff]
  rw [this]

theorem edgeAt_rename (hρ : Function.Injective ρ) (F : Frag) (e : EdgeDecl) : edgeAt (frag ρ F) (edge ρ e) = edgeAt F e :=
  findIdx?_rename (edge_inj hρ) id (edge ρ) (fun _ => rfl) F.edges e

theorem storeAt_rename (hρ : Function.Injective ρ) (F : Frag) (C : Core) (n : Name) :
    storeAt (frag ρ F) (core ρ C) (nm ρ n) = storeAt F C n := by
  have h := findIdx?_rename (nm_inj hρ) StoreDecl.name (fun s => ⟨nm ρ s.name, s.nodes.map (nm ρ)⟩) (fun _ => rfl) F.stores n
  simp only [storeAt]
  rw [← h]
  rfl

theorem aggAt_rename (hρ : Function.Injective ρ) (F : Frag) (n : Name) : aggAt (frag ρ F) (nm ρ n) = aggAt F n :=
  findIdx?_rename (nm_inj hρ) AggDecl.name (fun a => { a with name := nm ρ a.name, nodes := a.nodes.map (·.map (nm ρ)) })
    (fun _ => rfl) F.aggs n

theorem vsAt_rename (hρ : Function.Injective ρ) (F : Frag) (n : Name) : vsAt (frag ρ F) (nm ρ n) = vsAt F n :=
  findIdx?_rename (nm_inj hρ) VsDecl.name (fun v => { v with name := nm ρ v.name, nodes := v.nodes.map (nm ρ) })
    (fun _ => rfl) F.vs n

theorem allOf_rename {α β : Type} {f f' : α → Option β} {r : α → α} (h : ∀ a, f' (r a) = f a) (l : List α) :
    allOf f' (l.map r) = allOf f l := by
  induction l with
  | nil => rfl
  | cons a l ih => simp only [List.map_cons, allOf, h, ih]

theorem place_rename (hρ : Function.Injective ρ) (F : Frag) (C : Core) (u : UMetric) :
    place (frag ρ F) (core ρ C) (metric ρ u) = place F C u := by
  cases u <;> simp only [metric, place, nodeAt_rename hρ, storeAt_rename hρ, allOf_rename (nodeAt_rename hρ F),
    allOf_rename (edgeAt_rename hρ F)]

/-- A metric of a virtual node under new names. -/
def vmetric (ρ : String → String) : VMetric → VMetric
  | .inFlow n => .inFlow (nm ρ n)
  | .outFlow n => .outFlow (nm ρ n)
  | .storeVolume n => .storeVolume (nm ρ n)
  | .storeShare n => .storeShare (nm ρ n)
  | .vsVolume n => .vsVolume (nm ρ n)
  | .vsShare n => .vsShare (nm ρ n)

theorem vplace_rename (hρ : Function.Injective ρ) (F : Frag) (C : Core) (u : VMetric) :
    (vmetric ρ u).place (frag ρ F) (core ρ C) = u.place F C := by
  cases u <;> simp only [vmetric, VMetric.place, aggAt_rename hρ, storeAt_rename hρ, vsAt_rename hρ]

theorem virtualMetric_rename (v : VNode) (a : Option Attr) :
    (virtualMetric (vnode ρ v) a).toOption = (virtualMetric v a).toOption.map (vmetric ρ) := by
  obtain ⟨x, body, ps⟩ := v
  cases body <;> rcases a with _ | _ | _ | _ | _ | _ | _ | _ | _ | _ | _ | _ | _ <;> rfl

theorem virtual_find_rename (hρ : Function.Injective ρ) (N : Net) (x : String) :
    (net ρ N).virtualNodes.find? (fun v => v.name = ρ x) = (N.virtualNodes.find? (fun v => v.name = x)).map (vnode ρ) := by
  rw [net_eq]
  simp only [List.find?_map]
  have : ((fun v : VNode => decide (v.name = ρ x)) ∘ vnode ρ) = fun v => decide (v.name = x) := by
    funext v
    simp [vnode, hρ.eq_iff]
  rw [this]

/-- What a document says of a component, under new names; what a parameter made by a node is about follows the node. -/
def target (ρ : String → String) : Target → Target
  | .made u => .made (metric ρ u)
  | t => Visit.mapTarget ρ t

theorem target_metric_rename (hρ : Function.Injective ρ) (N : Net) (t : Target) :
    ((target ρ t).metric (net ρ N)).toOption = (t.metric N).toOption.map (metric ρ) := by
  cases t with
  | node x a =>
    have h := node?_rename hρ N x
    simp only [target, Visit.mapTarget, Target.metric]
    cases h1 : N.node? x <;> cases h2 : (net ρ N).node? (ρ x) <;>
      simp only [h1, h2, Except.toOption, Option.map_none, Option.map_some, reduceCtorEq, Option.some.injEq] at h ⊢
    subst h
    exact metric_rename _ a
  | edge e =>
    simp only [target, Visit.mapTarget, Target.metric, Net.edgeMetric, toOption_map, pairs_rename hρ, Option.map_map]
    rfl
  | made u => rfl
  | transfer x => rfl
  | «virtual» x a => rfl

end Verif.Rename
