import Mathlib.Data.List.Basic
import Mathlib.Data.List.Nodup
import Mathlib.Tactic.Ring
import Verif.Model.Scenario

/-!
# Properties of the scenario domain (C04, C05, C06, C07)
-/

namespace Verif.Scenario

/-! ## Specification -/

/-- Cartesian product of `0..n` for each group size, in lexicographic order (last group fastest). -/
def cart : List Nat → List (List Nat)
  | [] => [[]]
  | n :: ns => (List.range n).flatMap (fun i => (cart ns).map (fun c => i :: c))

/-- Whether a group's subset selects a schema index. -/
def Group.selects (g : Group) (i : Nat) : Bool :=
  match g.subset with
  | none => true
  | some (.slice start stop) => decide (start ≤ i ∧ i < stop)
  | some (.indices is) => decide (i ∈ is)

/-- Whether all groups select their index of a combination. -/
def selected (groups : List Group) (c : List Nat) : Bool :=
  (groups.zip c).all (fun p => p.1.selects p.2)

/-- Indices per group as defined in the schema. -/
def Index.schemaIndices (s : Index) : List Nat :=
  match s.schema with
  | none => s.simulationIndices
  | some (_, is) => is

/-- What `ScenarioGroupBuilder::build` guarantees. -/
def Group.WF (g : Group) : Prop :=
  (∀ a b, g.subset = some (.slice a b) → a < b ∧ b ≤ g.size) ∧
  (∀ ls, g.labels = some ls → ls.length = g.size)

/-! ## The specification is what it should be -/

theorem mem_cart (ns c : List Nat) : c ∈ cart ns ↔ List.Forall₂ (· < ·) c ns := by
  induction ns generalizing c with
  | nil => simp [cart]
  | cons n ns ih =>
    simp only [cart, List.mem_flatMap, List.mem_range, List.mem_map]
    constructor
    · rintro ⟨i, hi, c', hc', rfl⟩
      exact List.Forall₂.cons hi ((ih c').1 hc')
    · intro h
      cases h with
      | cons h1 h2 => exact ⟨_, h1, _, (ih _).2 h2, rfl⟩

theorem nodup_cart (ns : List Nat) : (cart ns).Nodup := by
  induction ns with
  | nil => simp [cart]
  | cons n ns ih =>
    rw [cart, List.nodup_flatMap]
    constructor
    · intro i _
      exact ih.map (fun a b h => by simpa using h)
    · refine List.nodup_range.pairwise_of_forall_ne ?_
      intro a _ b _ hab c hca hcb
      simp only [List.mem_map] at hca hcb
      obtain ⟨x, _, rfl⟩ := hca
      obtain ⟨y, _, h⟩ := hcb
      simp at h
      exact hab h.1.symm

theorem length_cart (ns : List Nat) : (cart ns).length = prod ns := by
  induction ns with
  | nil => rfl
  | cons n ns ih =>
    simp [cart, prod, ih, List.length_flatMap]

/-! ## Decoding -/

theorem prod_append (a b : List Nat) : prod (a ++ b) = prod a * prod b := by
  induction a with
  | nil => simp [prod]
  | cons x xs ih => simp [prod, ih, Nat.mul_assoc]

theorem prod_reverse (a : List Nat) : prod a.reverse = prod a := by
  induction a with
  | nil => rfl
  | cons x xs ih => simp [prod, prod_append, ih, Nat.mul_comm]

theorem decodeRev_append (a b : List Nat) (r : Nat) :
    decodeRev (a ++ b) r = decodeRev a r ++ decodeRev b (r / prod a) := by
  induction a generalizing r with
  | nil => simp [decodeRev, prod]
  | cons x xs ih => simp [decodeRev, prod, ih, Nat.div_div_eq_div_mul]

theorem decode_cons (n : Nat) (ns : List Nat) (id : Nat) :
    decode (n :: ns) id = (id / prod ns % n) :: decode ns id := by
  simp [decode, decodeRev_append, decodeRev, prod_reverse]

theorem decode_add_mul (ns : List Nat) (k j : Nat) : decode ns (k * prod ns + j) = decode ns j := by
  induction ns generalizing k j with
  | nil => rfl
  | cons n ns ih =>
    rw [decode_cons, decode_cons]
    have e : k * prod (n :: ns) + j = (k * n) * prod ns + j := by simp [prod]; ring
    rw [e, ih]
    congr 1
    rcases Nat.eq_zero_or_pos (prod ns) with h0 | hpos
    · simp [h0]
    · rw [Nat.mul_comm, Nat.mul_add_div hpos, Nat.mul_comm k n, Nat.mul_add_mod]

theorem range_mul (n p : Nat) :
    List.range (n * p) = (List.range n).flatMap (fun i => (List.range p).map (fun j => i * p + j)) := by
  induction n with
  | zero => simp
  | succ n ih =>
    rw [List.range_succ, List.flatMap_append, ← ih, Nat.succ_mul, List.range_add]
    simp

theorem map_decode (ns : List Nat) : (List.range (prod ns)).map (decode ns) = cart ns := by
  induction ns with
  | nil => rfl
  | cons n ns ih =>
    rw [prod, range_mul, cart, List.map_flatMap]
    apply List.flatMap_congr
    intro i hi
    have hi : i < n := by simpa using hi
    rw [← ih, List.map_map, List.map_map]
    apply List.map_congr_left
    intro j hj
    have hj : j < prod ns := by simpa using hj
    simp only [Function.comp]
    rw [decode_cons, decode_add_mul]
    congr 1
    rw [Nat.mul_comm, Nat.mul_add_div (by omega), Nat.div_eq_of_lt hj, Nat.add_zero, Nat.mod_eq_of_lt hi]

theorem cart_getElem (ns : List Nat) (id : Nat) (h : id < prod ns) : (cart ns)[id]? = some (decode ns id) := by
  rw [← map_decode, List.getElem?_map, List.getElem?_range h]; rfl

/-! ## The subset loop -/

theorem position_eq_none {α : Type} [DecidableEq α] (a : α) (l : List α) : position a l = none ↔ a ∉ l := by
  induction l with
  | nil => simp [position]
  | cons x xs ih =>
    by_cases h : x = a
    · simp [position, h]
    · simp [position, h, ih, Ne.symm h]

theorem position_some {α : Type} [DecidableEq α] (a : α) (l : List α) (i : Nat) (h : position a l = some i) :
    l[i]? = some a := by
  induction l generalizing i with
  | nil => simp [position] at h
  | cons x xs ih =>
    by_cases hx : x = a
    · simp [position, hx] at h; subst h; simp [hx]
    · simp only [position, hx, if_false, Option.map_eq_some_iff] at h
      obtain ⟨j, hj, rfl⟩ := h
      simpa using ih j hj

theorem position_first {α : Type} [DecidableEq α] (a : α) (l : List α) (i : Nat) (h : position a l = some i) :
    ∀ j < i, l[j]? ≠ some a := by
  induction l generalizing i with
  | nil => simp [position] at h
  | cons x xs ih =>
    by_cases hx : x = a
    · simp [position, hx] at h; subst h; intro j hj; omega
    · simp only [position, hx, if_false, Option.map_eq_some_iff] at h
      obtain ⟨k, hk, rfl⟩ := h
      intro j hj
      cases j with
      | zero => simpa using hx
      | succ j => simpa using ih k hk j (by omega)

theorem simIndex_isSome (g : Group) (i : Nat) : (g.simIndex i).isSome = g.selects i := by
  unfold Group.simIndex Group.selects
  cases g.subset with
  | none => rfl
  | some s =>
    cases s with
    | slice a b =>
      by_cases h : i < a ∨ i ≥ b
      · simp only [h, if_true, Option.isSome_none]
        symm; rw [decide_eq_false_iff_not]; omega
      · simp only [h, if_false, Option.isSome_some]
        symm; rw [decide_eq_true_iff]; omega
    | indices is =>
      simp only
      by_cases h : i ∈ is
      · simp only [h, decide_true]
        cases hp : position i is with
        | none => exact absurd h ((position_eq_none i is).1 hp)
        | some _ => rfl
      · simp [h, (position_eq_none i is).2 h]

theorem simIndices_isSome (gs : List Group) (c : List Nat) : (simIndices gs c).isSome = selected gs c := by
  induction gs generalizing c with
  | nil => simp [simIndices, selected]
  | cons g gs ih =>
    cases c with
    | nil => simp [simIndices, selected]
    | cons i is =>
      have h1 := simIndex_isSome g i
      have h2 := ih is
      simp only [selected, List.zip_cons_cons, List.all_cons, simIndices] at *
      rw [← h1, ← h2]
      cases g.simIndex i <;> simp
      cases simIndices gs is <;> simp

theorem simIndices_none (gs : List Group) (c : List Nat) (h : simIndices gs c = none) : selected gs c = false := by
  rw [← simIndices_isSome, h]; rfl

theorem simIndices_some (gs : List Group) (c sim : List Nat) (h : simIndices gs c = some sim) :
    selected gs c = true := by
  rw [← simIndices_isSome, h]; rfl

theorem simIndices_noSubset (gs : List Group) (c : List Nat) (hlen : gs.length = c.length)
    (h : ∀ g ∈ gs, g.subset = none) : simIndices gs c = some c := by
  induction gs generalizing c with
  | nil => cases c with
    | nil => rfl
    | cons _ _ => simp at hlen
  | cons g gs ih =>
    cases c with
    | nil => simp at hlen
    | cons i is =>
      have := ih is (by simpa using hlen) (fun g hg => h g (by simp [hg]))
      simp [simIndices, Group.simIndex, h g (by simp), this]

theorem length_decode (ns : List Nat) (id : Nat) : (decode ns id).length = ns.length := by
  induction ns with
  | nil => rfl
  | cons n ns ih => simp [decode_cons, ih]

theorem labelsFor_ok (gs : List Group) (c : List Nat) (hwf : ∀ g ∈ gs, g.WF)
    (h : List.Forall₂ (· < ·) c (gs.map (·.size))) : ∃ ls, labelsFor gs c = .ok ls ∧ ls.length = gs.length := by
  induction gs generalizing c with
  | nil => exact ⟨[], by simp [labelsFor], rfl⟩
  | cons g gs ih =>
    cases h with
    | cons h1 h2 =>
      rename_i i is
      obtain ⟨ls, hls, hlen⟩ := ih is (fun g hg => hwf g (by simp [hg])) h2
      have hg := (hwf g (by simp)).2
      cases hlab : g.labels with
      | none =>
        refine ⟨toString i :: ls, ?_, by simp [hlen]⟩
        simp [labelsFor, Group.labelFor, hlab, hls]
      | some labels =>
        have hl := hg labels hlab
        have hi : i < labels.length := by rw [hl]; exact h1
        refine ⟨labels[i] :: ls, ?_, by simp [hlen]⟩
        simp [labelsFor, Group.labelFor, hlab, hls, List.getElem?_eq_getElem hi]

/-- What the subset loop produces, given that every id is in range. -/
theorem subsetLoop_spec (groups : List Group) (isSliced : Bool) (hwf : ∀ g ∈ groups, g.WF)
    (hns : isSliced = false → ∀ g ∈ groups, g.subset = none) (ids : List Nat)
    (hids : ∀ id ∈ ids, id < prod (groups.map (·.size))) : ∀ acc : List Index,
    acc.map (·.simulationId) = List.range acc.length →
    ∃ out, subsetLoop groups isSliced ids acc = .ok (acc ++ out) ∧
      (acc ++ out).map (·.simulationId) = List.range (acc ++ out).length ∧
      out.map Index.schemaIndices
        = (ids.map (decode (groups.map (·.size)))).filter (selected groups) ∧
      (∀ s ∈ out, ∀ i is, s.schema = some (i, is) → (cart (groups.map (·.size)))[i]? = some is) ∧
      (∀ s ∈ out, simIndices groups s.schemaIndices = some s.simulationIndices) ∧
      (∀ s ∈ out, s.schema.isSome = isSliced) ∧
      (∀ s ∈ out, labelsFor groups s.schemaIndices = .ok s.labels) := by
  induction ids with
  | nil => intro acc h; exact ⟨[], by simp [subsetLoop], by simpa using h, by simp, by simp, by simp, by simp, by simp⟩
  | cons id ids ih =>
    intro acc hacc
    have hid := hids id (by simp)
    have hids' : ∀ i ∈ ids, i < prod (groups.map (·.size)) := fun i hi => hids i (by simp [hi])
    have hmem : decode (groups.map (·.size)) id ∈ cart (groups.map (·.size)) :=
      List.mem_of_getElem? (cart_getElem _ _ hid)
    obtain ⟨ls, hls, _⟩ := labelsFor_ok groups _ hwf ((mem_cart _ _).1 hmem)
    cases hsim : simIndices groups (decode (groups.map (·.size)) id) with
    | none =>
      obtain ⟨out, h1, h2, h3, h4, h5, h6, h7⟩ := ih hids' acc hacc
      refine ⟨out, by simp [subsetLoop, hls, hsim, h1], h2, ?_, h4, h5, h6, h7⟩
      rw [List.map_cons, List.filter_cons, simIndices_none _ _ hsim]
      simpa using h3
    | some sim =>
      obtain ⟨out, h1, h2, h3, h4, h5, h6, h7⟩ := ih hids'
        (acc ++ [⟨acc.length, sim, if isSliced then some (id, decode (groups.map (·.size)) id) else none, ls⟩]) (by
          simp [hacc, List.range_succ])
      have hschema : (Index.schemaIndices ⟨acc.length, sim,
          if isSliced then some (id, decode (groups.map (·.size)) id) else none, ls⟩)
          = decode (groups.map (·.size)) id := by
        cases isSliced with
        | true => rfl
        | false =>
          have := simIndices_noSubset groups (decode (groups.map (·.size)) id)
            (by simp [length_decode]) (hns rfl)
          rw [this] at hsim
          cases hsim
          rfl
      refine ⟨⟨acc.length, sim, if isSliced then some (id, decode (groups.map (·.size)) id) else none, ls⟩ :: out,
        ?_, ?_, ?_, ?_, ?_, ?_, ?_⟩
      · simp only [subsetLoop, hls, hsim, h1, List.append_assoc, List.singleton_append]
      · simpa using h2
      · rw [List.map_cons, List.map_cons, List.filter_cons, simIndices_some _ _ _ hsim, if_pos rfl, hschema, h3]
      · intro s hs i is
        rcases List.mem_cons.1 hs with rfl | hs
        · intro h
          cases isSliced with
          | false => simp at h
          | true =>
            simp only [if_true, Option.some.injEq, Prod.mk.injEq] at h
            rw [← h.1, ← h.2]; exact cart_getElem _ _ hid
        · exact h4 s hs i is
      · intro s hs
        rcases List.mem_cons.1 hs with rfl | hs
        · rw [hschema]; exact hsim
        · exact h5 s hs
      · intro s hs
        rcases List.mem_cons.1 hs with rfl | hs
        · cases isSliced <;> rfl
        · exact h6 s hs
      · intro s hs
        rcases List.mem_cons.1 hs with rfl | hs
        · rw [hschema]; exact hls
        · exact h7 s hs

theorem any_scenarioMap (groups : List Group) (h : (groups.map Group.scenarioMap).any Option.isSome = false) :
    ∀ g ∈ groups, g.subset = none := by
  intro g hg
  have h' : (g.scenarioMap).isSome = false := by
    have := List.any_eq_false.1 h (g.scenarioMap) (List.mem_map.2 ⟨g, hg, rfl⟩)
    simpa using this
  unfold Group.scenarioMap at h'
  cases hs : g.subset with
  | none => rfl
  | some s => cases s <;> simp [hs] at h'

/-- C05: with any subsets (slices, index lists, label lists turned into indices) the scenarios run are exactly the
combinations of the full Cartesian product that every group selects, in the same order, each once, with simulation ids
`0..n-1`; and a recorded schema id is the position of the scenario in the full product. -/
theorem C05_subset_domain (groups : List Group) (hwf : ∀ g ∈ groups, g.WF) :
    ∃ d, buildSubset groups = .ok d ∧ d.groups = groups ∧
      d.indices.map Index.schemaIndices = (cart (groups.map (·.size))).filter (selected groups) ∧
      d.indices.map (·.simulationId) = List.range d.indices.length ∧
      (∀ s ∈ d.indices, ∀ i is, s.schema = some (i, is) → (cart (groups.map (·.size)))[i]? = some is) := by
  obtain ⟨out, h1, h2, h3, h4, _⟩ := subsetLoop_spec groups ((groups.map Group.scenarioMap).any Option.isSome) hwf
    (fun h => any_scenarioMap groups h) (List.range (prod (groups.map (·.size)))) (by simp) [] (by simp)
  refine ⟨⟨out, groups, groups.map Group.scenarioMap⟩, ?_, rfl, ?_, ?_, ?_⟩
  · simp only [buildSubset, h1, List.nil_append]
  · simpa [map_decode] using h3
  · simpa using h2
  · exact h4

/-- Membership form of C05: a combination is run iff it lies in the product and every group selects its index;
and no scenario is run twice. -/
theorem C05_subset_mem (groups : List Group) (hwf : ∀ g ∈ groups, g.WF) (d : Domain)
    (hd : buildSubset groups = .ok d) :
    (∀ c, c ∈ d.indices.map Index.schemaIndices ↔
      (List.Forall₂ (· < ·) c (groups.map (·.size)) ∧
        ∀ (k : Nat) (g : Group) (i : Nat), groups[k]? = some g → c[k]? = some i → g.selects i = true)) ∧
    (d.indices.map Index.schemaIndices).Nodup := by
  obtain ⟨d', h1, _, h3, _⟩ := C05_subset_domain groups hwf
  rw [hd] at h1; cases h1
  rw [h3]
  refine ⟨fun c => ?_, (nodup_cart _).filter _⟩
  rw [List.mem_filter, mem_cart, selected, List.all_eq_true]
  refine and_congr_right fun _ => ?_
  constructor
  · intro h k g i hg hi
    refine h (g, i) (List.mem_iff_getElem?.2 ⟨k, ?_⟩)
    rw [List.getElem?_zip_eq_some]; exact ⟨hg, hi⟩
  · intro h p hp
    obtain ⟨k, hk⟩ := List.mem_iff_getElem?.1 hp
    rw [List.getElem?_zip_eq_some] at hk
    exact h k p.1 p.2 hk.1 hk.2

/-- C04: without subsets or combinations the domain is the whole Cartesian product, last group fastest, each combination
once, with simulation ids `0..n-1`, and schema and simulation indices coincide. -/
theorem C04_full_domain (groups : List Group) (hne : groups ≠ []) (hwf : ∀ g ∈ groups, g.WF)
    (hns : ∀ g ∈ groups, g.subset = none) :
    ∃ d, (DomainBuilder.mk groups none).build = .ok d ∧
      d.indices.map (·.simulationIndices) = cart (groups.map (·.size)) ∧
      d.indices.map (·.simulationId) = List.range (prod (groups.map (·.size))) ∧
      ∀ s ∈ d.indices, ∀ g, s.schemaIndexForGroup g = s.simulationIndexForGroup g := by
  have hany : (groups.map Group.scenarioMap).any Option.isSome = false := by
    rw [List.any_eq_false]
    intro x hx
    obtain ⟨g, hg, rfl⟩ := List.mem_map.1 hx
    simp [Group.scenarioMap, hns g hg]
  obtain ⟨out, h1, h2, h3, h4, h5, h6, _⟩ := subsetLoop_spec groups false hwf
    (fun _ => hns) (List.range (prod (groups.map (·.size)))) (by simp) [] (by simp)
  have hsel : (cart (groups.map (·.size))).filter (selected groups) = cart (groups.map (·.size)) := by
    apply List.filter_eq_self.2
    intro c _
    rw [selected, List.all_eq_true]
    intro p hp
    have := hns p.1 (List.of_mem_zip hp).1
    simp [Group.selects, this]
  have hnone : ∀ s ∈ out, s.schema = none := fun s hs => by
    have := h6 s hs
    cases h : s.schema with
    | none => rfl
    | some _ => rw [h] at this; simp at this
  have hcart : out.map (·.simulationIndices) = cart (groups.map (·.size)) := by
    have e : out.map Index.schemaIndices = out.map (·.simulationIndices) := by
      apply List.map_congr_left
      intro s hs
      simp [Index.schemaIndices, hnone s hs]
    rw [← e, h3, map_decode, hsel]
  refine ⟨⟨out, groups, groups.map Group.scenarioMap⟩, ?_, hcart, ?_, ?_⟩
  · cases groups with
    | nil => exact absurd rfl hne
    | cons g gs => simp only [DomainBuilder.build, buildSubset, hany, h1, List.nil_append]
  · have hl : out.length = prod (groups.map (·.size)) := by
      rw [← length_cart, ← hcart, List.length_map]
    simpa [hl] using h2
  · intro s hs g
    simp [Index.schemaIndexForGroup, Index.simulationIndexForGroup, hnone s hs]

/-! ## C06 simulation index ↔ schema index -/

theorem simIndices_getElem (gs : List Group) (c sim : List Nat) (h : simIndices gs c = some sim)
    (hlen : c.length = gs.length) (k : Nat) (g : Group) (hg : gs[k]? = some g) :
    ∃ i s, c[k]? = some i ∧ sim[k]? = some s ∧ g.simIndex i = some s := by
  induction gs generalizing c sim k with
  | nil => simp at hg
  | cons g0 gs ih =>
    cases c with
    | nil => simp at hlen
    | cons i is =>
      simp only [simIndices] at h
      cases h0 : g0.simIndex i with
      | none => simp [h0] at h
      | some s0 =>
        cases h1 : simIndices gs is with
        | none => simp [h0, h1] at h
        | some ss =>
          simp only [h0, h1, Option.some.injEq] at h
          subst h
          cases k with
          | zero => simp at hg; subst hg; exact ⟨i, s0, by simp, by simp, h0⟩
          | succ k => simpa using ih is ss h1 (by simpa using hlen) k (by simpa using hg)

theorem simIndex_map (g : Group) (i s : Nat) (h : g.simIndex i = some s) :
    (∀ m, g.scenarioMap = some m → m[s]? = some i) ∧ (g.scenarioMap = none → s = i) := by
  unfold Group.simIndex at h
  unfold Group.scenarioMap
  cases hsub : g.subset with
  | none => simp [hsub] at h; simp [h]
  | some sb =>
    cases sb with
    | slice a b =>
      simp only [hsub] at h
      split_ifs at h with hc
      simp only [Option.some.injEq] at h
      refine ⟨fun m hm => ?_, fun hm => by simp at hm⟩
      simp only [Option.some.injEq] at hm
      subst hm
      rw [List.getElem?_map, List.getElem?_range (by omega)]
      simp only [Option.map_some, Option.some.injEq]
      omega
    | indices is =>
      simp only [hsub] at h
      refine ⟨fun m hm => ?_, fun hm => by simp at hm⟩
      simp only [Option.some.injEq] at hm
      subst hm
      exact position_some _ _ _ h

/-- The round trip between simulation and schema index for one scenario of a domain. -/
def RoundTrips (d : Domain) (s : Index) (k : Nat) : Prop :=
  ∃ sim sch map, s.simulationIndexForGroup k = some sim ∧ s.schemaIndexForGroup k = some sch ∧
    d.scenarioMap[k]? = some map ∧ (∀ m, map = some m → m[sim]? = some sch) ∧ (map = none → sim = sch)

/-- The subset loop only needs to succeed (no well-formedness) for this weaker description of its output. -/
theorem subsetLoop_weak (groups : List Group) (isSliced : Bool)
    (hns : isSliced = false → ∀ g ∈ groups, g.subset = none) (ids : List Nat) : ∀ (acc out : List Index),
    subsetLoop groups isSliced ids acc = .ok out →
    (∀ s ∈ acc, simIndices groups s.schemaIndices = some s.simulationIndices ∧
      s.schemaIndices.length = groups.length) →
    (∀ s ∈ out, simIndices groups s.schemaIndices = some s.simulationIndices ∧
      s.schemaIndices.length = groups.length) := by
  induction ids with
  | nil => intro acc out h hacc; simp only [subsetLoop, Except.ok.injEq] at h; subst h; exact hacc
  | cons id ids ih =>
    intro acc out h hacc
    simp only [subsetLoop] at h
    cases hl : labelsFor groups (decode (groups.map (·.size)) id) with
    | error e => simp [hl] at h
    | ok ls =>
      cases hsim : simIndices groups (decode (groups.map (·.size)) id) with
      | none => simp only [hl, hsim] at h; exact ih acc out h hacc
      | some sim =>
        simp only [hl, hsim] at h
        refine ih _ out h ?_
        intro s hs
        rcases List.mem_append.1 hs with hs | hs
        · exact hacc s hs
        · rw [List.mem_singleton] at hs
          subst hs
          cases isSliced with
          | true => exact ⟨hsim, by simp [Index.schemaIndices, length_decode]⟩
          | false =>
            have := simIndices_noSubset groups (decode (groups.map (·.size)) id) (by simp [length_decode]) (hns rfl)
            rw [this] at hsim; cases hsim
            exact ⟨this, by simp [Index.schemaIndices, length_decode]⟩

theorem schemaIndexForGroup_eq (s : Index) (k : Nat) : s.schemaIndexForGroup k = s.schemaIndices[k]? := by
  unfold Index.schemaIndexForGroup Index.schemaIndices
  cases s.schema <;> rfl

theorem roundTrip_subset (groups : List Group) (d : Domain) (h : buildSubset groups = .ok d) (s : Index)
    (hs : s ∈ d.indices) (k : Nat) (hk : k < d.groups.length) : RoundTrips d s k := by
  unfold buildSubset at h
  simp only at h
  cases hl : subsetLoop groups ((groups.map Group.scenarioMap).any Option.isSome)
      (List.range (prod (groups.map (·.size)))) [] with
  | error e => rw [hl] at h; simp at h
  | ok out =>
    rw [hl] at h
    simp only [Except.ok.injEq] at h
    subst h
    have hw := subsetLoop_weak groups _ (fun h => any_scenarioMap groups h) _ _ _ hl (by simp) s hs
    simp only at hk
    have hg := List.getElem?_eq_getElem hk
    obtain ⟨i, sim, h1, h2, h3⟩ := simIndices_getElem _ _ _ hw.1 hw.2 k _ hg
    obtain ⟨h4, h5⟩ := simIndex_map _ _ _ h3
    refine ⟨sim, i, (groups[k]).scenarioMap, h2, ?_, ?_, h4, h5⟩
    · rw [schemaIndexForGroup_eq]; exact h1
    · simp only [List.getElem?_map, hg, Option.map_some]

theorem mapE_ok {α β ε : Type} (f : α → Except ε β) (l : List α) (out : List β) (h : mapE f l = .ok out) :
    out.length = l.length ∧ ∀ (k : Nat) (a : α), l[k]? = some a → ∃ b, f a = .ok b ∧ out[k]? = some b := by
  induction l generalizing out with
  | nil => simp [mapE] at h; subst h; simp
  | cons x xs ih =>
    simp only [mapE] at h
    cases hx : f x with
    | error e => simp [hx] at h
    | ok b =>
      cases hxs : mapE f xs with
      | error e => simp [hx, hxs] at h
      | ok bs =>
        simp only [hx, hxs, Except.ok.injEq] at h
        subst h
        obtain ⟨h1, h2⟩ := ih bs hxs
        refine ⟨by simp [h1], fun k a hk => ?_⟩
        cases k with
        | zero => simp at hk; subst hk; exact ⟨b, hx, by simp⟩
        | succ k => simpa using h2 k a (by simpa using hk)

theorem combinationLoop_weak (groups : List Group) (map : List (Option (List Nat))) (P : Index → Prop)
    (cs : List (List Nat))
    (hP : ∀ c ∈ cs, ∀ sim id i ls, combinationSim map c = .ok sim → P ⟨i, sim, some (id, c), ls⟩) :
    ∀ (acc out : List Index), combinationLoop groups map cs acc = .ok out → (∀ s ∈ acc, P s) → ∀ s ∈ out, P s := by
  induction cs with
  | nil => intro acc out h hacc; simp only [combinationLoop, Except.ok.injEq] at h; subst h; exact hacc
  | cons c cs ih =>
    intro acc out h hacc
    simp only [combinationLoop] at h
    cases h1 : combinationSim map c with
    | error e => simp [h1] at h
    | ok sim =>
      cases h2 : labelsFor groups c with
      | error e => simp [h1, h2] at h
      | ok ls =>
        simp only [h1, h2] at h
        refine ih (fun c hc => hP c (by simp [hc])) _ out h ?_
        intro s hs
        rcases List.mem_append.1 hs with hs | hs
        · exact hacc s hs
        · rw [List.mem_singleton] at hs; subst hs; exact hP c (by simp) _ _ _ _ h1

theorem combinationMapFor_length (g : Nat) (cs : List (List Nat)) (m : List Nat)
    (h : combinationMapFor g cs = some m) : ∀ c ∈ cs, g < c.length := by
  induction cs generalizing m with
  | nil => simp
  | cons c cs ih =>
    simp only [combinationMapFor] at h
    cases h1 : c[g]? with
    | none => simp [h1] at h
    | some i =>
      cases h2 : combinationMapFor g cs with
      | none => simp [h1, h2] at h
      | some is =>
        intro c' hc'
        rcases List.mem_cons.1 hc' with rfl | hc'
        · exact (List.getElem?_eq_some_iff.1 h1).1
        · exact ih is h2 c' hc'

theorem roundTrip_combinations (groups : List Group) (combs : List (List LabelOrIndex)) (d : Domain)
    (h : buildCombinations groups combs = .ok d) (s : Index) (hs : s ∈ d.indices) (k : Nat)
    (hk : k < d.groups.length) : RoundTrips d s k := by
  unfold buildCombinations at h
  cases h1 : mapE (resolveCombination groups) combs with
  | error e => simp [h1] at h
  | ok cs =>
    cases h2 : combinationMap groups.length cs with
    | error e => simp [h1, h2] at h
    | ok map =>
      cases h3 : combinationLoop groups map cs [] with
      | error e => simp [h1, h2, h3] at h
      | ok out =>
        simp only [h1, h2, h3, Except.ok.injEq] at h
        subst h
        simp only at hk hs
        -- the map entry of group k
        obtain ⟨hml, hm⟩ := mapE_ok _ _ _ h2
        obtain ⟨b, hb, hmap⟩ := hm k k (by rw [List.getElem?_range hk])
        have hlen : ∀ c ∈ cs, k < c.length := by
          cases hc : combinationMapFor k cs with
          | none => simp [hc] at hb
          | some m => exact combinationMapFor_length k cs m hc
        refine combinationLoop_weak groups map
          (fun s => RoundTrips ⟨out, groups, map⟩ s k) cs ?_ [] out h3 (by simp) s hs
        intro c hc sim id i ls hsim
        have hkc := hlen c hc
        have hck := List.getElem?_eq_getElem hkc
        obtain ⟨_, hz⟩ := mapE_ok _ _ _ hsim
        obtain ⟨v, hv, hsimk⟩ := hz k (b, c[k]) (by rw [List.getElem?_zip_eq_some]; exact ⟨hmap, hck⟩)
        refine ⟨v, c[k], b, hsimk, hck, hmap, ?_, ?_⟩
        · intro m hm
          subst hm
          simp only at hv
          cases hp : position c[k] m with
          | none => simp [hp] at hv
          | some j => simp only [hp, Except.ok.injEq] at hv; subst hv; exact position_some _ _ _ hp
        · intro hm
          subst hm
          simpa using hv.symm

/-- C06: in every domain that the builder accepts, whichever way scenarios were selected, for every scenario and group the
simulation index looked up in the group's scenario map is the schema index (and equals it when there is no map). -/
theorem C06_sim_schema_roundtrip (b : DomainBuilder) (d : Domain) (h : b.build = .ok d) (s : Index)
    (hs : s ∈ d.indices) (k : Nat) (hk : k < d.groups.length) : RoundTrips d s k := by
  unfold DomainBuilder.build at h
  cases hg : b.groups with
  | nil =>
    rw [hg] at h
    simp only [Except.ok.injEq] at h
    subst h
    simp only [List.mem_singleton] at hs
    subst hs
    simp only [List.length_singleton, Nat.lt_one_iff] at hk
    subst hk
    exact ⟨0, 0, none, rfl, rfl, rfl, by simp, by simp⟩
  | cons g gs =>
    rw [hg] at h
    simp only at h
    cases hc : b.combinations with
    | none => rw [hc] at h; exact roundTrip_subset _ d h s hs k hk
    | some combs =>
      rw [hc] at h
      simp only at h
      split_ifs at h
      exact roundTrip_combinations _ combs d h s hs k hk

/-- The number of groups of the domain equals the length of its scenario map (so C06 covers every map). -/
theorem C06_map_length (b : DomainBuilder) (d : Domain) (h : b.build = .ok d) :
    d.scenarioMap.length = d.groups.length := by
  unfold DomainBuilder.build at h
  cases hg : b.groups with
  | nil => rw [hg] at h; simp only [Except.ok.injEq] at h; subst h; rfl
  | cons g gs =>
    rw [hg] at h
    simp only at h
    cases hc : b.combinations with
    | none =>
      rw [hc] at h
      simp only [buildSubset] at h
      split at h
      · simp at h
      · simp only [Except.ok.injEq] at h; subst h; simp
    | some combs =>
      rw [hc] at h
      simp only at h
      split_ifs at h
      unfold buildCombinations at h
      cases h1 : mapE (resolveCombination (g :: gs)) combs with
      | error e => simp [h1] at h
      | ok cs =>
        cases h2 : combinationMap (g :: gs).length cs with
        | error e => simp only [h1, h2] at h; cases h
        | ok map =>
          cases h3 : combinationLoop (g :: gs) map cs [] with
          | error e => simp only [h1, h2, h3] at h; cases h
          | ok out =>
            simp only [h1, h2, h3, Except.ok.injEq] at h
            subst h
            have := (mapE_ok _ _ _ h2).1
            simpa using this

/-- The group builder only produces well-formed groups, which are the hypotheses of C04 and C05. -/
theorem groupBuilder_WF (b : GroupBuilder) (g : Group) (h : b.build = .ok g) : g.WF := by
  unfold GroupBuilder.build at h
  cases hs : b.buildSubset with
  | error e => simp [hs] at h
  | ok sub =>
    have hslice : ∀ x y, sub = some (.slice x y) → x < y ∧ y ≤ b.size := by
      intro x y hxy
      subst hxy
      unfold GroupBuilder.buildSubset at hs
      cases hb : b.subset with
      | none => simp [hb] at hs
      | some sb =>
        cases sb with
        | slice a c =>
          simp only [hb] at hs
          split_ifs at hs with hc
          simp only [Except.ok.injEq, Option.some.injEq, Subset.slice.injEq] at hs
          omega
        | indices is => simp [hb] at hs
        | labels ls =>
          simp only [hb] at hs
          cases hl : b.labels with
          | none => simp [hl] at hs
          | some labels =>
            simp only [hl] at hs
            split at hs <;> simp at hs
    cases hl : b.labels with
    | none =>
      simp only [hs, hl, Except.ok.injEq] at h
      subst h
      exact ⟨hslice, by simp⟩
    | some labels =>
      simp only [hs, hl] at h
      split_ifs at h with hc
      simp only [Except.ok.injEq] at h
      subst h
      refine ⟨hslice, fun ls hls => ?_⟩
      simp only [Option.some.injEq] at hls
      subst hls
      simpa using hc

/-! ## C07 schema ids -/

/-- Rank of a combination in the full product (last group fastest). -/
def rank : List Nat → List Nat → Nat
  | _ :: ns, c :: cs => c * prod ns + rank ns cs
  | _, _ => 0

/-- C07 refuted: two groups of sizes 2 and 3; selecting scenario `[0, 1]` by a subset of each group records schema id 1,
selecting the same scenario as an explicit combination records schema id 2. -/
theorem C07_schema_id_refuted :
    ∃ (sizes : List (String × Nat)) (i j : Nat) (d₁ d₂ : Domain) (s₁ s₂ : Index),
      (DomainBuilder.mk
        [⟨"A", 2, some (.indices [i]), none⟩, ⟨"B", 3, some (.indices [j]), none⟩] none).build = .ok d₁ ∧
      (DomainBuilder.mk [⟨"A", 2, none, none⟩, ⟨"B", 3, none, none⟩] (some [[.index i, .index j]])).build = .ok d₂ ∧
      sizes = [("A", 2), ("B", 3)] ∧
      d₁.indices = [s₁] ∧ d₂.indices = [s₂] ∧ s₁.schemaIndices = s₂.schemaIndices ∧
      s₁.schema.map (·.1) ≠ s₂.schema.map (·.1) := by
  refine ⟨_, 0, 1, _, _, ⟨0, [0, 0], some (1, [0, 1]), ["0", "1"]⟩, ⟨0, [0, 0], some (2, [0, 1]), ["0", "1"]⟩,
    rfl, rfl, rfl, ?_, ?_, ?_, ?_⟩ <;> decide

/-- C07 partial: with a single group both routes record the same schema id (the index in the group). Missing: domains with
two or more groups of size greater than one, where the code uses opposite radix orders. -/
theorem C07_schema_id_partial (n i : Nat) (hi : i < n) :
    schemaId [n] [i] 1 = i ∧ (cart [n])[i]? = some [i] := by
  constructor
  · simp [schemaId]
  · have := cart_getElem [n] i (by simpa [prod] using hi)
    rw [this, decode_cons]
    simp [prod, decode, decodeRev, Nat.mod_eq_of_lt hi]

/-! ## Concrete cases -/

example : ∃ d, (DomainBuilder.mk [⟨"A", 2, none, none⟩, ⟨"B", 3, none, some ["x", "y", "z"]⟩] none).build = .ok d ∧
    d.indices.map (·.simulationIndices) = [[0, 0], [0, 1], [0, 2], [1, 0], [1, 1], [1, 2]] :=
  ⟨_, rfl, by decide⟩

example : ∃ d, (DomainBuilder.mk [⟨"A", 3, some (.slice 1 3), none⟩, ⟨"B", 3, some (.indices [2, 0]), none⟩] none).build
      = .ok d ∧ d.indices.map Index.schemaIndices = [[1, 0], [1, 2], [2, 0], [2, 2]] ∧
        d.indices.map (·.simulationIndices) = [[0, 1], [0, 0], [1, 1], [1, 0]] :=
  ⟨_, rfl, by decide, by decide⟩

example : Group.WF ⟨"A", 3, some (.slice 1 3), some ["a", "b", "c"]⟩ := by
  constructor
  · intro a b h; simp only [Option.some.injEq, Subset.slice.injEq] at h; simp; omega
  · intro ls h; simp only [Option.some.injEq] at h; subst h; rfl

end Verif.Scenario
