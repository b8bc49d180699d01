import Verif.Lemmas.RenameNet

/-! # Renaming and building networks -/

namespace Verif.Rename

open Verif.Topology
open Verif.Schema (Frag Core BuildErr eachB firstDuplicate)

variable {ρ : String → String}

section Loops

variable {κ : Type} [DecidableEq κ] {r : κ → κ}

theorem lookup_rename {ν : Type} (hr : Function.Injective r) (k : κ) (l : List (κ × ν)) :
    lookup (r k) (l.map fun p => (r p.1, p.2)) = lookup k l := by
  induction l with
  | nil => rfl
  | cons p l ih =>
    obtain ⟨k', v⟩ := p
    simp only [List.map_cons, lookup, hr.eq_iff, ih]

theorem indexLoop_rename (hr : Function.Injective r) (dup : κ → Topology.Err) (ks : List κ) (i : Nat) (m : List (κ × Nat)) :
    (indexLoop dup (ks.map r) i (m.map fun p => (r p.1, p.2))).toOption =
      (indexLoop dup ks i m).toOption.map (List.map fun p => (r p.1, p.2)) := by
  induction ks generalizing i m with
  | nil => rfl
  | cons k ks ih =>
    simp only [List.map_cons, indexLoop, lookup_rename hr]
    cases lookup k m with
    | some _ => rfl
    | none =>
      have := ih (i + 1) (m ++ [(k, i)])
      simpa using this

end Loops

theorem edgeMaps_rename (hρ : Function.Injective ρ) (names : List (Name × Nat)) (es : List EdgeDecl) (i : Nat) (m : EdgeMaps) :
    (edgeMapsLoop (names.map fun p => (nm ρ p.1, p.2)) (es.map (edge ρ)) i m).toOption = (edgeMapsLoop names es i m).toOption := by
  induction es generalizing i m with
  | nil => rfl
  | cons e es ih =>
    simp only [List.map_cons, edgeMapsLoop, edge, lookup_rename (nm_inj hρ)]
    cases lookup e.src names with
    | none => rfl
    | some f =>
      cases lookup e.dst names with
      | none => rfl
      | some t =>
        simp only
        split_ifs
        · rfl
        · exact ih _ _

theorem members_rename (hρ : Function.Injective ρ) (names : List (Name × Nat)) (vi : Nat) (ns : List Name)
    (m : List (Nat × List Nat)) :
    (membersLoop (names.map fun p => (nm ρ p.1, p.2)) vi (ns.map (nm ρ)) m).toOption = (membersLoop names vi ns m).toOption := by
  induction ns generalizing m with
  | nil => rfl
  | cons n ns ih =>
    simp only [List.map_cons, membersLoop, lookup_rename (nm_inj hρ)]
    cases lookup n names with
    | none => rfl
    | some i => exact ih _

theorem associated_rename (hρ : Function.Injective ρ) (names : List (Name × Nat)) (vs : List VSDecl) (vi : Nat)
    (m : List (Nat × List Nat)) :
    (associatedLoop (names.map fun p => (nm ρ p.1, p.2)) (vs.map fun v => ⟨nm ρ v.name, v.members.map (nm ρ)⟩) vi m).toOption =
      (associatedLoop names vs vi m).toOption := by
  induction vs generalizing vi m with
  | nil => rfl
  | cons v vs ih =>
    have h := members_rename hρ names vi v.members m
    simp only [List.map_cons, associatedLoop]
    cases h1 : membersLoop names vi v.members m <;>
      cases h2 : membersLoop (names.map fun p => (nm ρ p.1, p.2)) vi (v.members.map (nm ρ)) m <;>
      simp only [h1, h2, Except.toOption, reduceCtorEq, Option.some.injEq] at h ⊢
    subst h
    exact ih _ _

/-- A built node under its new name. -/
def tnode (ρ : String → String) (n : TNode) : TNode := { n with name := nm ρ n.name }

theorem network_eq (M : Network) : network ρ M = ⟨M.nodes.map (tnode ρ), M.edges⟩ := rfl

theorem buildNode_rename (hρ : Function.Injective ρ) (names : List (Name × Nat)) (m : EdgeMaps) (assoc : List (Nat × List Nat))
    (d : NodeDecl) :
    (buildNode (names.map fun p => (nm ρ p.1, p.2)) m assoc ⟨nm ρ d.name, d.kind⟩).toOption =
      (buildNode names m assoc d).toOption.map (tnode ρ) := by
  obtain ⟨x, k⟩ := d
  simp only [buildNode, lookup_rename (nm_inj hρ)]
  cases lookup x names with
  | none => rfl
  | some i =>
    cases k <;> simp only <;> (try split_ifs) <;> rfl

theorem buildNodes_rename (hρ : Function.Injective ρ) (names : List (Name × Nat)) (m : EdgeMaps) (assoc : List (Nat × List Nat))
    (ds : List NodeDecl) :
    (buildNodes (names.map fun p => (nm ρ p.1, p.2)) m assoc (ds.map fun d => ⟨nm ρ d.name, d.kind⟩)).toOption =
      (buildNodes names m assoc ds).toOption.map (List.map (tnode ρ)) := by
  induction ds with
  | nil => rfl
  | cons d ds ih =>
    have h := buildNode_rename hρ names m assoc d
    simp only [List.map_cons, buildNodes]
    cases h1 : buildNode names m assoc d <;>
      cases h2 : buildNode (names.map fun p => (nm ρ p.1, p.2)) m assoc ⟨nm ρ d.name, d.kind⟩ <;>
      simp only [h1, h2, Except.toOption, reduceCtorEq, Option.some.injEq, Option.map_some, Option.map_none] at h ⊢
    cases h3 : buildNodes names m assoc ds <;>
      cases h4 : buildNodes (names.map fun p => (nm ρ p.1, p.2)) m assoc (ds.map fun d => ⟨nm ρ d.name, d.kind⟩) <;>
      simp only [h3, h4, Except.toOption, reduceCtorEq, Option.some.injEq, Option.map_some, Option.map_none] at ih ⊢
    simp [h, ih]

theorem buildEdges_rename (hρ : Function.Injective ρ) (names : List (Name × Nat)) (es : List EdgeDecl) (i : Nat) :
    (buildEdges (names.map fun p => (nm ρ p.1, p.2)) (es.map (edge ρ)) i).toOption = (buildEdges names es i).toOption := by
  induction es generalizing i with
  | nil => rfl
  | cons e es ih =>
    simp only [List.map_cons, buildEdges, edge, lookup_rename (nm_inj hρ)]
    cases lookup e.src names with
    | none => rfl
    | some f =>
      cases lookup e.dst names with
      | none => rfl
      | some t =>
        have h := ih (i + 1)
        cases h1 : buildEdges names es (i + 1) <;>
          cases h2 : buildEdges (names.map fun p => (nm ρ p.1, p.2)) (es.map (edge ρ)) (i + 1) <;>
          simp only [h1, h2, Except.toOption, reduceCtorEq, Option.some.injEq] at h ⊢
        rw [h]

/-- A builder under new names. -/
def builder (ρ : String → String) (b : Builder) : Builder :=
  ⟨b.nodes.map fun d => ⟨nm ρ d.name, d.kind⟩, b.edges.map (edge ρ), b.vs.map fun v => ⟨nm ρ v.name, v.members.map (nm ρ)⟩⟩

/-- What a chain of matches gives. -/
theorem build_chain (b : Builder) : b.build.toOption =
    (indexLoop .duplicateNodeName (b.nodes.map (·.name)) 0 []).toOption.bind fun names =>
    (indexLoop .duplicateEdge b.edges 0 []).toOption.bind fun _ =>
    (edgeMapsLoop names b.edges 0 ⟨[], []⟩).toOption.bind fun maps =>
    (indexLoop .duplicateVirtualStorageName (b.vs.map (·.name)) 0 []).toOption.bind fun _ =>
    (associatedLoop names b.vs 0 []).toOption.bind fun assoc =>
    (buildNodes names maps assoc b.nodes).toOption.bind fun nodes =>
    (buildEdges names b.edges 0).toOption.map fun edges => ⟨nodes, edges⟩ := by
  simp only [Builder.build]
  cases h1 : indexLoop .duplicateNodeName (b.nodes.map (·.name)) 0 [] <;> simp only [Except.toOption, Option.bind_none, Option.bind_some]
  cases h2 : indexLoop .duplicateEdge b.edges 0 [] <;> simp only [Option.bind_none, Option.bind_some]
  rename_i names _
  cases h3 : edgeMapsLoop names b.edges 0 ⟨[], []⟩ <;> simp only [Option.bind_none, Option.bind_some]
  rename_i maps
  cases h4 : indexLoop .duplicateVirtualStorageName (b.vs.map (·.name)) 0 [] <;> simp only [Option.bind_none, Option.bind_some]
  cases h5 : associatedLoop names b.vs 0 [] <;> simp only [Option.bind_none, Option.bind_some]
  rename_i assoc
  cases h6 : buildNodes names maps assoc b.nodes <;> simp only [Option.bind_none, Option.bind_some]
  cases h7 : buildEdges names b.edges 0 <;> rfl

theorem builder_rename (hρ : Function.Injective ρ) (b : Builder) :
    (builder ρ b).build.toOption = b.build.toOption.map (network ρ) := by
  rw [build_chain, build_chain]
  have h1 := indexLoop_rename (nm_inj hρ) Topology.Err.duplicateNodeName (b.nodes.map (·.name)) 0 []
  have h2 := indexLoop_rename (edge_inj hρ) Topology.Err.duplicateEdge b.edges 0 []
  have h4 := indexLoop_rename (nm_inj hρ) Topology.Err.duplicateVirtualStorageName (b.vs.map (·.name)) 0 []
  simp only [List.map_nil, List.map_map, Function.comp_def] at h1 h2 h4
  simp only [builder, List.map_map, Function.comp_def, h1, h2, h4]
  cases (indexLoop .duplicateNodeName (b.nodes.map (·.name)) 0 []).toOption <;> simp
  rename_i names
  cases (indexLoop .duplicateEdge b.edges 0 []).toOption <;> simp
  simp only [edgeMaps_rename hρ]
  cases (edgeMapsLoop names b.edges 0 ⟨[], []⟩).toOption <;> simp
  rename_i maps
  cases (indexLoop .duplicateVirtualStorageName (b.vs.map (·.name)) 0 []).toOption <;> simp
  simp only [associated_rename hρ]
  cases (associatedLoop names b.vs 0 []).toOption <;> simp
  rename_i assoc
  simp only [buildNodes_rename hρ, buildEdges_rename hρ]
  cases (buildNodes names maps assoc b.nodes).toOption <;> simp
  cases (buildEdges names b.edges 0).toOption <;> simp [network_eq]

/-! ## Resolving names -/

theorem eachB_rename {α α' β : Type} {f : α → Except BuildErr β} {f' : α' → Except BuildErr β} {g : α → α'}
    (hf : ∀ a, (f' (g a)).toOption = (f a).toOption) (l : List α) :
    (eachB f' (l.map g)).toOption = (eachB f l).toOption := by
  induction l with
  | nil => rfl
  | cons a l ih => simp only [List.map_cons, eachB, toOption_bind, toOption_pure, hf, ih]

theorem index?_rename (hρ : Function.Injective ρ) (F : Frag) (n : Name) :
    ((frag ρ F).index? (nm ρ n)).toOption = (F.index? n).toOption := by
  have : ((frag ρ F).nodes.map (·.name)).zipIdx = ((F.nodes.map (·.name)).zipIdx).map fun p => (nm ρ p.1, p.2) := by
    simp only [frag, List.map_map, List.zipIdx_map]
    rfl
  simp only [Frag.index?, this, lookup_rename (nm_inj hρ)]
  cases lookup n (F.nodes.map (·.name)).zipIdx <;> rfl

theorem firstDuplicate_rename (hρ : Function.Injective ρ) (seen ns : List Name) :
    firstDuplicate (seen.map (nm ρ)) (ns.map (nm ρ)) = (firstDuplicate seen ns).map (nm ρ) := by
  induction ns generalizing seen with
  | nil => rfl
  | cons n ns ih =>
    simp only [List.map_cons, firstDuplicate, List.mem_map_of_injective (nm_inj hρ)]
    split_ifs
    · rfl
    · exact ih (n :: seen)

theorem resolveAgg_rename (hρ : Function.Injective ρ) (F : Frag) (a : Schema.AggDecl) :
    ((frag ρ F).resolveAgg { a with name := nm ρ a.name, nodes := a.nodes.map (·.map (nm ρ)) }).toOption =
      (F.resolveAgg a).toOption := by
  simp only [Frag.resolveAgg, toOption_bind, toOption_pure]
  rw [eachB_rename (fun ns => eachB_rename (index?_rename hρ F) ns)]

theorem resolveStore_rename (hρ : Function.Injective ρ) (F : Frag) (s : Schema.StoreDecl) :
    ((frag ρ F).resolveStore ⟨nm ρ s.name, s.nodes.map (nm ρ)⟩).toOption = (F.resolveStore s).toOption := by
  simp only [Frag.resolveStore]
  rw [eachB_rename (index?_rename hρ F)]

theorem resolveVs_rename (hρ : Function.Injective ρ) (F : Frag) (v : Schema.VsDecl) :
    ((frag ρ F).resolveVs { v with name := nm ρ v.name, nodes := v.nodes.map (nm ρ) }).toOption = (F.resolveVs v).toOption := by
  simp only [Frag.resolveVs, toOption_bind, toOption_pure]
  rw [eachB_rename (index?_rename hρ F)]

theorem fragBuilder_rename (F : Frag) : (frag ρ F).builder = builder ρ F.builder := by
  simp only [Frag.builder, frag, builder, List.map_map]
  rfl

theorem data_rename (F : Frag) :
    (fun i : Nat => (((frag ρ F).nodes[i]?).map (·.data)).getD Schema.noData) =
      fun i : Nat => ((F.nodes[i]?).map (·.data)).getD Schema.noData := by
  funext i
  simp [frag, Function.comp_def]

theorem build_rename (hρ : Function.Injective ρ) (F : Frag) :
    (frag ρ F).build.toOption = F.build.toOption.map (core ρ) := by
  have h := builder_rename hρ F.builder
  rw [← fragBuilder_rename] at h
  have ha : firstDuplicate [] ((frag ρ F).aggs.map (·.name)) = (firstDuplicate [] (F.aggs.map (·.name))).map (nm ρ) := by
    have := firstDuplicate_rename hρ [] (F.aggs.map (·.name))
    simpa [frag, Function.comp_def] using this
  have hs : firstDuplicate [] ((frag ρ F).stores.map (·.name)) = (firstDuplicate [] (F.stores.map (·.name))).map (nm ρ) := by
    have := firstDuplicate_rename hρ [] (F.stores.map (·.name))
    simpa [frag, Function.comp_def] using this
  have h1 : (eachB (frag ρ F).resolveAgg (frag ρ F).aggs).toOption = (eachB F.resolveAgg F.aggs).toOption :=
    eachB_rename (resolveAgg_rename hρ F) F.aggs
  have h2 : (eachB (frag ρ F).resolveStore (frag ρ F).stores).toOption = (eachB F.resolveStore F.stores).toOption :=
    eachB_rename (resolveStore_rename hρ F) F.stores
  have h3 : (eachB (frag ρ F).resolveVs (frag ρ F).vs).toOption = (eachB F.resolveVs F.vs).toOption :=
    eachB_rename (resolveVs_rename hρ F) F.vs
  simp only [Frag.build, ha, hs, data_rename]
  cases h4 : F.builder.build <;> cases h5 : (frag ρ F).builder.build <;>
    simp only [h4, h5, Except.toOption, Option.map_none, Option.map_some, reduceCtorEq, Option.some.injEq] at h ⊢
  subst h
  cases firstDuplicate [] (F.aggs.map (·.name)) <;> cases firstDuplicate [] (F.stores.map (·.name)) <;>
    simp only [Option.map_none, Option.map_some]
  change Except.toOption _ = (Except.toOption _).map (core ρ)
  simp only [toOption_bind, toOption_pure, h1, h2, h3]
  cases (eachB F.resolveAgg F.aggs).toOption <;> simp
  cases (eachB F.resolveStore F.stores).toOption <;> simp
  cases (eachB F.resolveVs F.vs).toOption <;> simp [core]

end Verif.Rename
