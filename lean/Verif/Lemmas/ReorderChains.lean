import Verif.Lemmas.Reorder
import Verif.Props.Choice

/-! # The order of nodes and edges: chains of edges and factors -/

namespace Verif.Reorder

open Verif.Solver Verif.Topology
open Verif.State (NodeKind)

/-- Elements of a list found again in another order. -/
theorem exists_moved {α : Type} [DecidableEq α] {l l' : List α} (h : l'.Perm l) : ∃ κ : Nat → Nat, ∀ i, l'[κ i]? = l[i]? := by
  refine ⟨fun i => match l[i]? with | some d => l'.idxOf d | none => i, fun i => ?_⟩
  cases hd : l[i]? with
  | none =>
    simp only [hd]
    rw [List.getElem?_eq_none_iff] at hd ⊢
    rw [h.length_eq]
    exact hd
  | some d =>
    have hm := h.mem_iff.2 (List.mem_of_getElem? hd)
    simp only [hd]
    rw [List.getElem?_eq_getElem (List.idxOf_lt_length_of_mem hm), List.getElem_idxOf]

/-- Positions of the edges with a property. -/
def positions (b : Builder) (p : EdgeDecl → Bool) : List Nat := (b.edges.zipIdx.filter fun q => p q.1).map (·.2)

theorem mem_positions {b : Builder} {p : EdgeDecl → Bool} {k : Nat} : k ∈ positions b p ↔ ∃ e, b.edges[k]? = some e ∧ p e = true := by
  unfold positions
  simp only [List.mem_map, List.mem_filter, Prod.exists, List.mem_zipIdx_iff_getElem?]
  constructor
  · rintro ⟨e, k, ⟨h1, h2⟩, rfl⟩
    exact ⟨e, h1, h2⟩
  · rintro ⟨e, h1, h2⟩
    exact ⟨e, k, ⟨h1, h2⟩, rfl⟩

theorem positions_nodup (b : Builder) (p : EdgeDecl → Bool) : (positions b p).Nodup := by
  unfold positions
  refine (List.Sublist.map _ List.filter_sublist).nodup ?_
  rw [List.zipIdx_map_snd]
  exact List.nodup_range'

variable {ρ κ : Nat → Nat} {b b' : Builder} {M M' : Model} {net net' : Network}

theorem positions_perm (he : b.edges.Nodup) (he' : b'.edges.Nodup) (hp : b'.edges.Perm b.edges) (hk : ∀ i, b'.edges[κ i]? = b.edges[i]?)
    (p : EdgeDecl → Bool) : (positions b' p).Perm ((positions b p).map κ) := by
  have hnd : ((positions b p).map κ).Nodup := by
    refine List.Nodup.map_on (fun x hx y hy hxy => ?_) (positions_nodup b p)
    obtain ⟨e, h1, -⟩ := mem_positions.1 hx
    have h2 : b.edges[x]? = b.edges[y]? := by rw [← hk, ← hk, hxy]
    exact (List.getElem?_inj (List.getElem?_eq_some_iff.1 h1).1 he).1 h2
  rw [List.perm_ext_iff_of_nodup (positions_nodup b' p) hnd]
  intro k
  rw [mem_positions, List.mem_map]
  constructor
  · rintro ⟨e, h1, h2⟩
    obtain ⟨i, hi⟩ := List.mem_iff_getElem?.1 (hp.mem_iff.1 (List.mem_of_getElem? h1))
    refine ⟨i, mem_positions.2 ⟨e, hi, h2⟩, ?_⟩
    have h3 := (hk i).trans hi
    exact (List.getElem?_inj (List.getElem?_eq_some_iff.1 h3).1 he').1 (h3.trans h1.symm)
  · rintro ⟨i, hi, rfl⟩
    obtain ⟨e, h1, h2⟩ := mem_positions.1 hi
    exact ⟨e, (hk i).trans h1, h2⟩

/-- Networks built from the same edges, found again by `κ`, and the same nodes. -/
structure Moved (κ : Nat → Nat) (b b' : Builder) (net net' : Network) : Prop where
  nodes : b'.nodes.Perm b.nodes
  edges : b'.edges.Perm b.edges
  moved : ∀ i, b'.edges[κ i]? = b.edges[i]?
  built : b.build = .ok net
  built' : b'.build = .ok net'

theorem Moved.into (h : Moved κ b b' net net') (n : Name) : (edgesInto b' n).Perm ((edgesInto b n).map κ) :=
  positions_perm ((C49_build_iff b).1 ⟨_, h.built⟩).edges ((C49_build_iff b').1 ⟨_, h.built'⟩).edges h.edges h.moved fun e => e.dst = n

theorem Moved.from (h : Moved κ b b' net net') (n : Name) : (edgesFrom b' n).Perm ((edgesFrom b n).map κ) :=
  positions_perm ((C49_build_iff b).1 ⟨_, h.built⟩).edges ((C49_build_iff b').1 ⟨_, h.built'⟩).edges h.edges h.moved fun e => e.src = n

theorem Moved.pass (h : Moved κ b b' net net') {e e' : Nat} (hp : PassThrough net e e') : PassThrough net' (κ e) (κ e') := by
  obtain ⟨n, hn, hk, hi, ho⟩ := hp
  obtain ⟨i, d, hd, rfl⟩ := (mem_nodes h.built n).1 hn
  obtain ⟨j, hj⟩ := List.mem_iff_getElem?.1 (h.nodes.mem_iff.2 (List.mem_of_getElem? hd))
  refine ⟨_, (mem_nodes h.built' _).2 ⟨j, d, hj, rfl⟩, hk, ?_, ?_⟩
  · have := h.into d.name
    rw [show edgesInto b d.name = [e] from hi] at this
    exact List.perm_singleton.1 this
  · have := h.from d.name
    rw [show edgesFrom b d.name = [e'] from ho] at this
    exact List.perm_singleton.1 this

theorem Moved.chain (h : Moved κ b b' net net') {e e' : Nat} (hp : SameChain net e e') : SameChain net' (κ e) (κ e') := by
  induction hp with
  | rel _ _ hab => exact .rel _ _ (h.pass hab)
  | refl => exact Relation.EqvGen.refl _
  | symm _ _ _ ih => exact ih.symm
  | trans _ _ _ _ _ ih1 ih2 => exact ih1.trans ih2

/-- Chains of the new network are those of the old. -/
theorem Moved.chain_back (h : Moved κ b b' net net') {e e' : Nat} (he : e < b.edges.length) (he' : e' < b.edges.length)
    (hp : SameChain net' (κ e) (κ e')) : SameChain net e e' := by
  obtain ⟨κ', hκ'⟩ := exists_moved h.edges.symm
  have hm : Moved κ' b' b net' net := ⟨h.nodes.symm, h.edges.symm, hκ', h.built', h.built⟩
  have hnd := ((C49_build_iff b).1 ⟨_, h.built⟩).edges
  have hinv : ∀ x < b.edges.length, κ' (κ x) = x := by
    intro x hx
    have h1 : b.edges[κ' (κ x)]? = b.edges[x]? := (hκ' _).trans (h.moved x)
    exact ((List.getElem?_inj hx hnd).1 h1.symm).symm
  have := hm.chain hp
  rwa [hinv e he, hinv e' he'] at this

theorem edges_perm (h : Moved κ b b' net net') (hr : ∀ i, b'.nodes[ρ i]? = b.nodes[i]?) (is : List Nat) :
    (edgesOfSet net' (is.map ρ)).Perm ((edgesOfSet net is).map κ) := by
  unfold edgesOfSet
  induction is with
  | nil => exact .nil
  | cons i is ih =>
    simp only [List.map_cons, List.flatMap_cons, List.map_append]
    refine List.Perm.append ?_ ih
    rw [nodes_at h.built, nodes_at h.built', hr]
    cases b.nodes[i]? with
    | none => exact .nil
    | some d =>
      simp only [Option.map_some, Option.getD_some, edgesOf, nodeOf]
      cases d.kind
      · exact h.from _
      · exact h.into _
      · exact h.from _
      · simp only [List.map_append]
        exact (h.into _).append (h.from _)

theorem edges_in (hb : b.build = .ok net) (is : List Nat) : ∀ k ∈ edgesOfSet net is, k < b.edges.length := by
  have h0 : ∀ (p : EdgeDecl → Bool), ∀ k ∈ positions b p, k < b.edges.length := by
    intro p k hk
    obtain ⟨e, he, -⟩ := mem_positions.1 hk
    exact (List.getElem?_eq_some_iff.1 he).1
  have hi : ∀ n, ∀ k ∈ edgesInto b n, k < b.edges.length := fun n => h0 fun e => e.dst = n
  have ho : ∀ n, ∀ k ∈ edgesFrom b n, k < b.edges.length := fun n => h0 fun e => e.src = n
  intro k hk
  unfold edgesOfSet at hk
  obtain ⟨i, -, hk⟩ := List.mem_flatMap.1 hk
  rw [nodes_at hb] at hk
  cases hd : b.nodes[i]? with
  | none => simp [hd] at hk
  | some d =>
    rw [hd] at hk
    simp only [Option.map_some, Option.getD_some, edgesOf, nodeOf] at hk
    cases hkind : d.kind <;> rw [hkind] at hk
    · exact ho _ k hk
    · exact hi _ k hk
    · exact ho _ k hk
    · exact (List.mem_append.1 hk).elim (hi _ k) (ho _ k)

theorem cpair_edges (h : Moved κ b b' net net') (hr : ∀ i, b'.nodes[ρ i]? = b.nodes[i]?) (p : CPair) :
    ((cpair ρ p).edges net').Perm ((p.edges net).map κ) := by
  unfold CPair.edges cpair
  rw [List.map_append]
  exact (edges_perm h hr _).append (edges_perm h hr _)

theorem cpair_in (hb : b.build = .ok net) (p : CPair) : ∀ k ∈ p.edges net, k < b.edges.length := fun k hk =>
  (List.mem_append.1 hk).elim (edges_in hb _ k) (edges_in hb _ k)

theorem setupPairs_same (a : AggNode) : ({ a with nodes := a.nodes.map (·.map ρ) } : AggNode).setupPairs = a.setupPairs.map (cpair ρ) := by
  unfold AggNode.setupPairs
  have : ({ a with nodes := a.nodes.map (·.map ρ) } : AggNode).factors = a.factors := rfl
  rw [this]
  cases a.factors with
  | none => rfl
  | some F =>
    simp only [constPairs_map]
    cases F.constPairs a.nodes <;> rfl

theorem constantBounds_same (h : Reordered ρ b b') (hm : SameModel ρ M M') (hb : b.build = .ok M.net) (hb' : b'.build = .ok M'.net)
    (i : Nat) (lo hi : ℚ) : ConstantBounds M' (ρ i) lo hi ↔ ConstantBounds M i lo hi := by
  unfold ConstantBounds
  rw [nodes_at hb, nodes_at hb', h.moved, hm.data]
  cases b.nodes[i]? with
  | none => simp
  | some d =>
    simp only [Option.map_some, Option.some.injEq]
    exact ⟨fun ⟨n, e, hk, r⟩ => ⟨_, rfl, by subst e; exact hk, r⟩, fun ⟨n, e, hk, r⟩ => ⟨_, rfl, by subst e; exact hk, r⟩⟩

/-- A network whose programs C56 and C86 describe. -/
structure Treated (M : Model) : Prop where
  valid : M.Valid
  members : MembersConstant M
  factors : M.FactorsOk

/-- It is one in any order. -/
theorem Treated.moved (hM : Treated M) (h : Reordered ρ b b') (hm : SameModel ρ M M') (hb : b.build = .ok M.net) (hb' : b'.build = .ok M'.net) :
    Treated M' := by
  obtain ⟨κ, hκ⟩ := exists_moved h.edges
  have hmv : Moved κ b b' M.net M'.net := ⟨h.nodes, h.edges, hκ, hb, hb'⟩
  have hlen : ∀ i < M.net.nodes.length, ρ i < M'.net.nodes.length := by
    intro i hi
    obtain ⟨n, hn⟩ : ∃ n, M.net.nodes[i]? = some n := ⟨_, List.getElem?_eq_getElem hi⟩
    rw [nodes_at hb] at hn
    obtain ⟨d, hd, -⟩ := Option.map_eq_some_iff.1 hn
    have := nodes_at hb' (ρ i)
    rw [h.moved, hd] at this
    exact (List.getElem?_eq_some_iff.1 this).1
  have hagg : ∀ a ∈ M'.aggs, ∃ a₀ ∈ M.aggs, a = { a₀ with nodes := a₀.nodes.map (·.map ρ) } := by
    rw [hm.aggs]
    intro a ha
    obtain ⟨a₀, h0, rfl⟩ := List.mem_map.1 ha
    exact ⟨a₀, h0, rfl⟩
  refine ⟨⟨⟨b', hb'⟩, ?_, ?_⟩, ?_, ⟨?_, ?_, ?_, ?_, ?_⟩⟩
  · intro a ha s hs i hi
    obtain ⟨a₀, h0, rfl⟩ := hagg a ha
    obtain ⟨s₀, hs0, rfl⟩ := List.mem_map.1 hs
    obtain ⟨i₀, hi0, rfl⟩ := List.mem_map.1 hi
    exact hlen _ (hM.valid.aggs a₀ h0 s₀ hs0 i₀ hi0)
  · rw [hm.vs]
    intro v hv p hp
    obtain ⟨v₀, h0, rfl⟩ := List.mem_map.1 hv
    obtain ⟨p₀, hp0, rfl⟩ := List.mem_map.1 hp
    exact hlen _ (hM.valid.vs v₀ h0 p₀ hp0)
  · intro a ha mn mx he s hs i hi
    obtain ⟨a₀, h0, rfl⟩ := hagg a ha
    obtain ⟨s₀, hs0, rfl⟩ := List.mem_map.1 hs
    obtain ⟨i₀, hi0, rfl⟩ := List.mem_map.1 hi
    obtain ⟨lo, hi', hc⟩ := hM.members a₀ h0 mn mx he s₀ hs0 i₀ hi0
    exact ⟨lo, hi', (constantBounds_same h hm hb hb' _ _ _).2 hc⟩
  · intro a ha F hF
    obtain ⟨a₀, h0, rfl⟩ := hagg a ha
    obtain ⟨cps, h1, h2⟩ := hM.factors.setup a₀ h0 F hF
    refine ⟨cps.map (cpair ρ), by rw [constPairs_map, h1]; rfl, fun p hp => ?_⟩
    obtain ⟨q, hq, rfl⟩ := List.mem_map.1 hp
    exact h2 q hq
  · intro a ha F hF
    obtain ⟨a₀, h0, rfl⟩ := hagg a ha
    exact hM.factors.rhs a₀ h0 F hF
  · intro a ha p hp hvar
    obtain ⟨a₀, h0, rfl⟩ := hagg a ha
    rw [setupPairs_same] at hp
    obtain ⟨q, hq, rfl⟩ := List.mem_map.1 hp
    rw [(cpair_edges hmv h.moved q).pairwise_iff fun hxy hyx => hxy hyx.symm, List.pairwise_map]
    refine (hM.factors.apart a₀ h0 q hq hvar).imp_of_mem fun hx hy hn hc => hn ?_
    exact hmv.chain_back (cpair_in hb q _ hx) (cpair_in hb q _ hy) hc
  · intro a ha p hp hvar i hi n hn hk
    obtain ⟨a₀, h0, rfl⟩ := hagg a ha
    rw [setupPairs_same] at hp
    obtain ⟨q, hq, rfl⟩ := List.mem_map.1 hp
    have : ∃ i₀ ∈ q.nodes0 ++ q.nodes1, ρ i₀ = i := by
      simp only [cpair, ← List.map_append, List.mem_map] at hi
      exact hi
    obtain ⟨i₀, hi0, rfl⟩ := this
    rw [nodes_at hb', h.moved] at hn
    obtain ⟨d, hd, rfl⟩ := Option.map_eq_some_iff.1 hn
    have := hM.factors.storage a₀ h0 q hq hvar i₀ hi0 (nodeOf b i₀ d) (by rw [nodes_at hb, hd]; rfl) hk
    have hf := (from_nil b d.name).1 this
    exact (from_nil b' d.name).2 fun e he => hf e (h.edges.mem_iff.1 he)
  · have : M'.aggs.flatMap AggNode.setupPairs = (M.aggs.flatMap AggNode.setupPairs).map (cpair ρ) := by
      rw [hm.aggs, List.flatMap_map, List.map_flatMap]
      congr 1
      funext a
      exact setupPairs_same a
    rw [this, List.pairwise_map]
    have half : ∀ p q : CPair, (∀ e ∈ (cpair ρ p).edges M'.net, ∃ e' ∈ (cpair ρ q).edges M'.net, SameChain M'.net e e') →
        ∀ e ∈ p.edges M.net, ∃ e' ∈ q.edges M.net, SameChain M.net e e' := by
      intro p q hpq e he
      obtain ⟨e', he', hc⟩ := hpq (κ e) ((cpair_edges hmv h.moved p).mem_iff.2 (List.mem_map_of_mem he))
      obtain ⟨e₀, h0, rfl⟩ := List.mem_map.1 ((cpair_edges hmv h.moved q).mem_iff.1 he')
      exact ⟨e₀, h0, hmv.chain_back (cpair_in hb p _ he) (cpair_in hb q _ h0) hc⟩
    exact hM.factors.distinct.imp fun hpq hvp hvq hs => hpq hvp hvq ⟨half _ _ hs.1, half _ _ hs.2⟩

/-! ## Groups -/

theorem group_same (hm : SameModel ρ M M') (g : List Nat) : IsGroup M' g ↔ ∃ g₀, IsGroup M g₀ ∧ g = g₀.map ρ := by
  unfold IsGroup
  rw [hm.aggs]
  constructor
  · rintro ⟨a, ha, mn, mx, he, hg⟩
    obtain ⟨a₀, h0, rfl⟩ := List.mem_map.1 ha
    obtain ⟨g₀, hg0, rfl⟩ := List.mem_map.1 hg
    exact ⟨g₀, ⟨a₀, h0, mn, mx, he, hg0⟩, rfl⟩
  · rintro ⟨g₀, ⟨a₀, h0, mn, mx, he, hg0⟩, rfl⟩
    exact ⟨_, List.mem_map_of_mem h0, mn, mx, he, List.mem_map_of_mem hg0⟩

theorem inj_in (h : Reordered ρ b b') (hb : b.build = .ok M.net) {i j : Nat} (hj : j < M.net.nodes.length) (he : ρ i = ρ j) : i = j := by
  have hnd : b.nodes.Nodup := ((C49_build_iff b).1 ⟨_, hb⟩).nodes.of_map _
  have hl : M.net.nodes.length = b.nodes.length := (C49_topology b _ hb).1
  have h1 : b.nodes[j]? = b.nodes[i]? := by rw [← h.moved, ← h.moved, he]
  exact ((List.getElem?_inj (hl ▸ hj) hnd).1 h1).symm

theorem group_in (hv : M.Valid) {g : List Nat} (hg : IsGroup M g) {i : Nat} (hi : i ∈ g) : i < M.net.nodes.length := by
  obtain ⟨a, ha, _, _, _, hga⟩ := hg
  exact hv.aggs a ha g hga i hi

theorem inGroup_same (hv : M.Valid) (h : Reordered ρ b b') (hm : SameModel ρ M M') (hb : b.build = .ok M.net) (i : Nat) :
    InGroup M' (ρ i) ↔ InGroup M i := by
  constructor
  · rintro ⟨g, hg, hi⟩
    obtain ⟨g₀, hg0, rfl⟩ := (group_same hm g).1 hg
    obtain ⟨j, hj, he⟩ := List.mem_map.1 hi
    obtain rfl := inj_in h hb (group_in hv hg0 hj) he.symm
    exact ⟨g₀, hg0, hj⟩
  · rintro ⟨g, hg, hi⟩
    exact ⟨_, (group_same hm _).2 ⟨g, hg, rfl⟩, List.mem_map_of_mem hi⟩

theorem relax_same (hv : M.Valid) (h : Reordered ρ b b') (hm : SameModel ρ M M') (hb : b.build = .ok M.net) : SameModel ρ M.relax M'.relax where
  data := by
    intro i
    have e : InGroup M' (ρ i) = InGroup M i := propext (inGroup_same hv h hm hb i)
    simp only [Model.relax, hm.data]
    congr 1 <;> by_cases hi : InGroup M i <;> simp [hi, e]
  aggs := by
    unfold Model.relax
    simp only [hm.aggs, List.map_map]
    rfl
  vs := hm.vs

theorem choice_same (hv : M.Valid) (h : Reordered ρ b b') (hm : SameModel ρ M M') (hb : b.build = .ok M.net) (hb' : b'.build = .ok M'.net)
    (φ : EdgeDecl → ℚ) : (∃ on, Choice M' (along b' φ) on) ↔ ∃ on, Choice M (along b φ) on := by
  constructor
  · rintro ⟨on, hc⟩
    refine ⟨fun g => on (g.map ρ), fun a ha mn mx he => ?_, fun g hg ho i hi => ?_, fun g hg ho i hi lo hi' hcb => ?_⟩
    · have hmem : ({ a with nodes := a.nodes.map fun x => x.map ρ } : AggNode) ∈ M'.aggs := by
        rw [hm.aggs]
        exact List.mem_map.2 ⟨a, ha, rfl⟩
      have := hc.count _ hmem mn mx he
      simp only [List.filter_map, List.length_map] at this
      exact this
    · have := hc.idle _ ((group_same hm _).2 ⟨g, hg, rfl⟩) ho (ρ i) (List.mem_map_of_mem hi)
      rwa [flowAt_same h hb hb'] at this
    · have := hc.busy _ ((group_same hm _).2 ⟨g, hg, rfl⟩) ho (ρ i) (List.mem_map_of_mem hi) lo hi' ((constantBounds_same h hm hb hb' _ _ _).2 hcb)
      rwa [flowAt_same h hb hb'] at this
  · rintro ⟨on, hc⟩
    obtain ⟨ρ', hρ'⟩ := exists_moved h.nodes.symm
    have hnd : b.nodes.Nodup := ((C49_build_iff b).1 ⟨_, hb⟩).nodes.of_map _
    have hl : M.net.nodes.length = b.nodes.length := (C49_topology b _ hb).1
    have hinv : ∀ i < M.net.nodes.length, ρ' (ρ i) = i := by
      intro i hi
      have h1 : b.nodes[i]? = b.nodes[ρ' (ρ i)]? := by rw [hρ', h.moved]
      exact ((List.getElem?_inj (hl ▸ hi) hnd).1 h1).symm
    have hback : ∀ g : List Nat, (∀ i ∈ g, i < M.net.nodes.length) → (g.map ρ).map ρ' = g := by
      intro g hg
      rw [List.map_map]
      exact (List.map_congr_left fun i hi => hinv i (hg i hi)).trans g.map_id
    refine ⟨fun g => on (g.map ρ'), fun a ha mn mx he => ?_, fun g hg ho i hi => ?_, fun g hg ho i hi lo hi' hcb => ?_⟩
    · rw [hm.aggs] at ha
      obtain ⟨a₀, h0, rfl⟩ := List.mem_map.1 ha
      have := hc.count a₀ h0 mn mx he
      simp only [List.filter_map, List.length_map]
      have e : a₀.nodes.filter ((fun g => on (g.map ρ')) ∘ fun x => x.map ρ) = a₀.nodes.filter on := by
        refine List.filter_congr fun g hg => ?_
        simp only [Function.comp]
        rw [hback g fun i hi => hv.aggs a₀ h0 g hg i hi]
      rw [e]
      exact this
    · obtain ⟨g₀, hg0, rfl⟩ := (group_same hm g).1 hg
      obtain ⟨j, hj, rfl⟩ := List.mem_map.1 hi
      simp only [hback g₀ fun i hi => group_in hv hg0 hi] at ho
      rw [flowAt_same h hb hb']
      exact hc.idle g₀ hg0 ho j hj
    · obtain ⟨g₀, hg0, rfl⟩ := (group_same hm g).1 hg
      obtain ⟨j, hj, rfl⟩ := List.mem_map.1 hi
      simp only [hback g₀ fun i hi => group_in hv hg0 hi] at ho
      rw [flowAt_same h hb hb']
      exact hc.busy g₀ hg0 ho j hj lo hi' ((constantBounds_same h hm hb hb' _ _ _).1 hcb)

theorem choice_agree {f g : Nat → ℚ} (e : flowAt M.net f = flowAt M.net g) {on : List Nat → Bool} (hc : Choice M f on) : Choice M g on :=
  ⟨hc.count, fun k hk ho i hi => e ▸ hc.idle k hk ho i hi, fun k hk ho i hi lo hi' hcb => e ▸ hc.busy k hk ho i hi lo hi' hcb⟩

end Verif.Reorder
