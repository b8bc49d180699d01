import Verif.Lemmas.SchemaCore

/-! # What a network of the schema adds to the builder -/

namespace Verif.Schema

open Verif.State (NodeKind)
open Verif.Topology (Name EdgeDecl TNode)
open Verif.Solver (Metric NodeData Relationship)

/-! ## Names -/

theorem bump_keys (g : Nat × Nat → Nat × Nat) (k : String) (m : List (String × Nat × Nat)) :
    (bump g k m).map (·.1) = if k ∈ m.map (·.1) then m.map (·.1) else m.map (·.1) ++ [k] := by
  induction m with
  | nil => simp [bump]
  | cons x xs ih =>
    obtain ⟨k', c⟩ := x
    simp only [bump]
    by_cases h : k' = k
    · simp [h]
    · simp only [h, if_false, List.map_cons, ih, List.mem_cons, Ne.symm h, false_or]
      split <;> simp

theorem bump_mem (g : Nat × Nat → Nat × Nat) (k : String) (m : List (String × Nat × Nat)) (hn : (m.map (·.1)).Nodup)
    (k' : String) (c : Nat × Nat) :
    (k', c) ∈ bump g k m ↔ (k' ≠ k ∧ (k', c) ∈ m) ∨
      (k' = k ∧ ((∃ c0, (k, c0) ∈ m ∧ c = g c0) ∨ (k ∉ m.map (·.1) ∧ c = g (0, 0)))) := by
  induction m with
  | nil => simp [bump]
  | cons x xs ih =>
    obtain ⟨j, d⟩ := x
    simp only [List.map_cons, List.nodup_cons] at hn
    have ih := ih hn.2
    have hj : ∀ c, (j, c) ∉ xs := fun c hm => hn.1 (List.mem_map_of_mem (f := (·.1)) hm)
    simp only [bump]
    by_cases h : j = k
    · subst h
      simp only [if_true, List.mem_cons, Prod.mk.injEq, List.map_cons]
      constructor
      · rintro (⟨rfl, rfl⟩ | hm)
        · exact Or.inr ⟨rfl, Or.inl ⟨d, Or.inl ⟨trivial, rfl⟩, rfl⟩⟩
        · by_cases hk : k' = j
          · subst hk; exact absurd hm (hj c)
          · exact Or.inl ⟨hk, Or.inr hm⟩
      · rintro (⟨hne, ⟨rfl, rfl⟩ | hm⟩ | ⟨rfl, ⟨c0, ⟨_, rfl⟩ | hm, rfl⟩ | ⟨hnot, _⟩⟩)
        · exact absurd rfl hne
        · exact Or.inr hm
        · exact Or.inl ⟨rfl, rfl⟩
        · exact absurd hm (hj c0)
        · exact absurd (Or.inl trivial) hnot
    · simp only [h, if_false, List.mem_cons, Prod.mk.injEq, List.map_cons, ih]
      have hk : ∀ c0 : Nat × Nat, ((k = j ∧ c0 = d) ∨ (k, c0) ∈ xs) ↔ (k, c0) ∈ xs := by
        intro c0; simp [Ne.symm h]
      simp only [hk, not_or]
      constructor
      · rintro (⟨rfl, rfl⟩ | ⟨h1, h2⟩ | ⟨rfl, h2 | ⟨h2, h3⟩⟩)
        · exact Or.inl ⟨h, Or.inl ⟨rfl, rfl⟩⟩
        · exact Or.inl ⟨h1, Or.inr h2⟩
        · exact Or.inr ⟨rfl, Or.inl h2⟩
        · exact Or.inr ⟨rfl, Or.inr ⟨⟨Ne.symm h, h2⟩, h3⟩⟩
      · rintro (⟨h1, ⟨rfl, rfl⟩ | h2⟩ | ⟨rfl, h2 | ⟨⟨_, h2⟩, h3⟩⟩)
        · exact Or.inl ⟨rfl, rfl⟩
        · exact Or.inr (Or.inl ⟨h1, h2⟩)
        · exact Or.inr (Or.inr ⟨rfl, Or.inl h2⟩)
        · exact Or.inr (Or.inr ⟨rfl, Or.inr ⟨h2, h3⟩⟩)

/-- A map with the counts `(a k, b k)` of the keys with a positive count. -/
def Counts (a b : String → Nat) (m : List (String × Nat × Nat)) : Prop :=
  (m.map (·.1)).Nodup ∧ ∀ k c, (k, c) ∈ m ↔ (0 < a k + b k ∧ c = (a k, b k))

theorem Counts.key {a b m} (h : Counts a b m) (k : String) : k ∈ m.map (·.1) ↔ 0 < a k + b k := by
  simp only [List.mem_map]
  constructor
  · rintro ⟨⟨k', c⟩, hm, rfl⟩; exact ((h.2 _ _).1 hm).1
  · intro hp; exact ⟨(k, (a k, b k)), (h.2 _ _).2 ⟨hp, rfl⟩, rfl⟩

theorem Counts.bump_fst {a b m} (h : Counts a b m) (k : String) :
    Counts (fun x => a x + if x = k then 1 else 0) b (bump (fun c => (c.1 + 1, c.2)) k m) := by
  constructor
  · rw [bump_keys]
    split
    · exact h.1
    · rename_i hk
      rw [List.nodup_append]
      refine ⟨h.1, by simp, ?_⟩
      intro x hx y hy
      simp only [List.mem_singleton] at hy
      subst hy
      rintro rfl
      exact hk hx
  · intro x c
    rw [bump_mem _ _ _ h.1]
    by_cases hx : x = k
    · subst hx
      simp only [ne_eq, not_true_eq_false, false_and, false_or, true_and, if_true, h.key]
      constructor
      · rintro (⟨c0, hm, rfl⟩ | ⟨hz, rfl⟩)
        · obtain ⟨_, rfl⟩ := (h.2 _ _).1 hm
          exact ⟨by omega, rfl⟩
        · have h1 : a x = 0 := by omega
          have h2 : b x = 0 := by omega
          simp [h1, h2]
      · rintro ⟨_, rfl⟩
        by_cases hz : 0 < a x + b x
        · exact Or.inl ⟨(a x, b x), (h.2 _ _).2 ⟨hz, rfl⟩, rfl⟩
        · right
          have h1 : a x = 0 := by omega
          have h2 : b x = 0 := by omega
          simp [h1, h2]
    · simp [hx, h.2]

theorem Counts.bump_snd {a b m} (h : Counts a b m) (k : String) :
    Counts a (fun x => b x + if x = k then 1 else 0) (bump (fun c => (c.1, c.2 + 1)) k m) := by
  constructor
  · rw [bump_keys]
    split
    · exact h.1
    · rename_i hk
      rw [List.nodup_append]
      refine ⟨h.1, by simp, ?_⟩
      intro x hx y hy
      simp only [List.mem_singleton] at hy
      subst hy
      rintro rfl
      exact hk hx
  · intro x c
    rw [bump_mem _ _ _ h.1]
    by_cases hx : x = k
    · subst hx
      simp only [ne_eq, not_true_eq_false, false_and, false_or, true_and, if_true, h.key]
      constructor
      · rintro (⟨c0, hm, rfl⟩ | ⟨hz, rfl⟩)
        · obtain ⟨_, rfl⟩ := (h.2 _ _).1 hm
          exact ⟨by omega, rfl⟩
        · have h1 : a x = 0 := by omega
          have h2 : b x = 0 := by omega
          simp [h1, h2]
      · rintro ⟨_, rfl⟩
        by_cases hz : 0 < a x + b x
        · exact Or.inl ⟨(a x, b x), (h.2 _ _).2 ⟨hz, rfl⟩, rfl⟩
        · right
          have h1 : a x = 0 := by omega
          have h2 : b x = 0 := by omega
          simp [h1, h2]
    · simp [hx, h.2]

theorem counts_fst (ns : List SNode) {a b m} (h : Counts a b m) :
    Counts (fun x => a x + (ns.map (·.name)).count x) b (ns.foldl (fun m n => bump (fun c => (c.1 + 1, c.2)) n.name m) m) := by
  induction ns generalizing a m with
  | nil => simpa using h
  | cons n ns ih =>
    have := ih (h.bump_fst n.name)
    simp only [List.foldl_cons, List.map_cons, List.count_cons]
    have he : (fun x => a x + (List.count x (ns.map (·.name)) + if (n.name == x) = true then 1 else 0)) =
        (fun x => (a x + if x = n.name then 1 else 0) + List.count x (ns.map (·.name))) := by
      funext x
      by_cases hx : x = n.name
      · subst hx; simp; omega
      · simp [hx, Ne.symm hx]
    rw [he]; exact this

theorem counts_snd (ns : List VNode) {a b m} (h : Counts a b m) :
    Counts a (fun x => b x + (ns.map (·.name)).count x) (ns.foldl (fun m n => bump (fun c => (c.1, c.2 + 1)) n.name m) m) := by
  induction ns generalizing b m with
  | nil => simpa using h
  | cons n ns ih =>
    have := ih (h.bump_snd n.name)
    simp only [List.foldl_cons, List.map_cons, List.count_cons]
    have he : (fun x => b x + (List.count x (ns.map (·.name)) + if (n.name == x) = true then 1 else 0)) =
        (fun x => (b x + if x = n.name then 1 else 0) + List.count x (ns.map (·.name))) := by
      funext x
      by_cases hx : x = n.name
      · subst hx; simp; omega
      · simp [hx, Ne.symm hx]
    rw [he]; exact this

theorem insertByName_mem (x y : String × Nat × Nat) (l : List (String × Nat × Nat)) : y ∈ insertByName x l ↔ y = x ∨ y ∈ l := by
  induction l with
  | nil => simp [insertByName]
  | cons z zs ih =>
    simp only [insertByName]
    split
    · simp
    · simp only [List.mem_cons, ih]
      constructor
      · rintro (h | h | h) <;> simp [h]
      · rintro (h | h | h) <;> simp [h]

theorem sortByName_mem (y : String × Nat × Nat) (l : List (String × Nat × Nat)) : y ∈ sortByName l ↔ y ∈ l := by
  induction l with
  | nil => simp [sortByName]
  | cons x xs ih => simp [sortByName, insertByName_mem, ih]

theorem insertByName_sorted (x : String × Nat × Nat) (l : List (String × Nat × Nat)) (hl : l.Pairwise (fun a b => a.1 < b.1))
    (hx : ∀ y ∈ l, y.1 ≠ x.1) : (insertByName x l).Pairwise (fun a b => a.1 < b.1) := by
  induction l with
  | nil => simp [insertByName]
  | cons z zs ih =>
    rw [List.pairwise_cons] at hl
    simp only [insertByName]
    by_cases h : x.1 ≤ z.1
    · rw [if_pos h, List.pairwise_cons]
      have hxz : x.1 < z.1 := by
        rcases Std.le_iff_lt_or_eq.1 h with h' | h'
        · exact h'
        · exact absurd h'.symm (hx z (by simp))
      refine ⟨?_, List.pairwise_cons.2 hl⟩
      intro y hy
      rcases List.mem_cons.1 hy with rfl | hy
      · exact hxz
      · exact String.lt_trans hxz (hl.1 y hy)
    · rw [if_neg h, List.pairwise_cons]
      refine ⟨?_, ih hl.2 (fun y hy => hx y (by simp [hy]))⟩
      intro y hy
      rcases (insertByName_mem _ _ _).1 hy with rfl | hy
      · exact String.not_le.1 h
      · exact hl.1 y hy

theorem sortByName_sorted (l : List (String × Nat × Nat)) (hl : (l.map (·.1)).Nodup) :
    (sortByName l).Pairwise (fun a b => a.1 < b.1) := by
  induction l with
  | nil => simp [sortByName]
  | cons x xs ih =>
    simp only [List.map_cons, List.nodup_cons] at hl
    refine insertByName_sorted x _ (ih hl.2) ?_
    intro y hy he
    exact hl.1 (he ▸ List.mem_map_of_mem ((sortByName_mem _ _).1 hy))

/-- The counts `validate` works with. -/
theorem validate_counts (N : Net) :
    Counts (fun x => (N.nodes.map (·.name)).count x) (fun x => (N.virtualNodes.map (·.name)).count x)
      (N.virtualNodes.foldl (fun m n => bump (fun c => (c.1, c.2 + 1)) n.name m)
        (N.nodes.foldl (fun m n => bump (fun c => (c.1 + 1, c.2)) n.name m) [])) := by
  have h0 : Counts (fun _ => 0) (fun _ => 0) [] := by constructor <;> simp
  have h1 := counts_fst N.nodes h0
  have h2 := counts_snd N.virtualNodes h1
  simpa using h2

theorem validate_ok (N : Net) (h : N.validate = .ok ()) :
    (N.nodes.map (·.name)).Nodup ∧ (N.virtualNodes.map (·.name)).Nodup ∧
      ∀ x ∈ N.nodes.map (·.name), x ∉ N.virtualNodes.map (·.name) := by
  have hc := validate_counts N
  unfold Net.validate at h
  simp only at h
  split at h
  · rename_i he
    rw [List.isEmpty_iff, List.filter_eq_nil_iff] at he
    have hle : ∀ x, (N.nodes.map (·.name)).count x + (N.virtualNodes.map (·.name)).count x ≤ 1 := by
      intro x
      by_contra hgt
      have hm := (hc.2 x _).2 ⟨by show 0 < _ + _; beta_reduce; omega, rfl⟩
      have := he _ hm
      simp only [gt_iff_lt, decide_eq_true_eq, not_lt] at this
      omega
    refine ⟨?_, ?_, ?_⟩
    · rw [List.nodup_iff_count_le_one]; intro x; have := hle x; omega
    · rw [List.nodup_iff_count_le_one]; intro x; have := hle x; omega
    · intro x h1 h2
      have := hle x
      have p1 := List.count_pos_iff.2 h1
      have p2 := List.count_pos_iff.2 h2
      omega
  · cases h

/-! ## Parts -/

theorem join_nodes (fs : List Frag) : (Frag.join fs).nodes = fs.flatMap (·.nodes) ∧ (Frag.join fs).edges = fs.flatMap (·.edges) ∧
    (Frag.join fs).aggs = fs.flatMap (·.aggs) ∧ (Frag.join fs).stores = fs.flatMap (·.stores) ∧
    (Frag.join fs).vs = fs.flatMap (·.vs) ∧ (Frag.join fs).params = fs.flatMap (·.params) ∧
    (Frag.join fs).locals = fs.flatMap (·.locals) := by
  induction fs with
  | nil => simp [Frag.join]
  | cons f fs ih =>
    unfold Frag.join at ih
    obtain ⟨h1, h2, h3, h4, h5, h6, h7⟩ := ih
    simp [Frag.join, Frag.add, h1, h2, h3, h4, h5, h6, h7]

/-- The parts a compiled network is made of. -/
structure Parts (P : ParamNo) (N : Net) (F : Frag) (Gs Vs : List Frag) (Es : List (List EdgeDecl)) : Prop where
  valid : N.validate = .ok ()
  frags : List.Forall₂ (fun n G => n.frag P = .ok G) N.nodes Gs
  virtuals : List.Forall₂ (fun v G => N.virtualFrag v = .ok G) N.virtualNodes Vs
  pairs : List.Forall₂ (fun e ps => N.pairs e = .ok ps) N.edges Es
  nodes : F.nodes = Gs.flatMap (·.nodes) ++ Vs.flatMap (·.nodes)
  edges : F.edges = Gs.flatMap (·.edges) ++ Vs.flatMap (·.edges) ++ Es.flatten
  aggs : F.aggs = Gs.flatMap (·.aggs) ++ Vs.flatMap (·.aggs)
  stores : F.stores = Gs.flatMap (·.stores) ++ Vs.flatMap (·.stores)
  vs : F.vs = Gs.flatMap (·.vs) ++ Vs.flatMap (·.vs)
  params : F.params = Gs.flatMap (·.params) ++ Vs.flatMap (·.params)
  locals : F.locals = Gs.flatMap (·.locals) ++ Vs.flatMap (·.locals) ++ N.nodes.flatMap (fun n => n.params.map (fun p => (n.name, p)))

theorem compile_parts {P N F} (h : Net.compile P N = .ok F) : ∃ Gs Vs Es, Parts P N F Gs Vs Es := by
  unfold Net.compile at h
  cases hv : N.validate with
  | error e => simp [hv, Bind.bind, Except.bind] at h
  | ok u =>
    cases h1 : each (SNode.frag P) N.nodes with
    | error e => simp [hv, h1, Bind.bind, Except.bind] at h
    | ok Gs =>
      cases h2 : each N.virtualFrag N.virtualNodes with
      | error e => simp [hv, h1, h2, Bind.bind, Except.bind] at h
      | ok Vs =>
        cases h3 : each N.pairs N.edges with
        | error e => simp [hv, h1, h2, h3, Bind.bind, Except.bind] at h
        | ok Es =>
          simp only [hv, h1, h2, h3, Bind.bind, Except.bind, Pure.pure, Except.pure, Except.ok.injEq] at h
          obtain ⟨a1, a2, a3, a4, a5, a6, a7⟩ := join_nodes Gs
          obtain ⟨b1, b2, b3, b4, b5, b6, b7⟩ := join_nodes Vs
          refine ⟨Gs, Vs, Es, hv, (each_ok _ _ _).1 h1, (each_ok _ _ _).1 h2, (each_ok _ _ _).1 h3, ?_, ?_, ?_, ?_, ?_, ?_, ?_⟩
          all_goals
            rw [← h]
            simp [Frag.add, a1, a2, a3, a4, a5, a6, a7, b1, b2, b3, b4, b5, b6, b7]

theorem bind_ok {α β : Type} {x : Except Err α} {f : α → Except Err β} {b : β} (h : (x >>= f) = .ok b) :
    ∃ a, x = .ok a ∧ f a = .ok b := by
  cases x with
  | error e => simp [Bind.bind, Except.bind] at h
  | ok a => exact ⟨a, rfl, h⟩

theorem virtual_frag {N : Net} {v : VNode} {G : Frag} (h : N.virtualFrag v = .ok G) :
    G.nodes = [] ∧ G.edges = [] ∧ G.params = [] := by
  unfold Net.virtualFrag at h
  cases hb : v.body with
  | aggregated refs hi lo rel =>
    simp only [hb] at h
    obtain ⟨s, _, hs⟩ := bind_ok h
    simp only [Pure.pure, Except.pure, Except.ok.injEq] at hs
    subst hs; exact ⟨rfl, rfl, rfl⟩
  | aggregatedStorage refs =>
    simp only [hb] at h
    obtain ⟨s, _, hs⟩ := bind_ok h
    simp only [Pure.pure, Except.pure, Except.ok.injEq] at hs
    subst hs; exact ⟨rfl, rfl, rfl⟩
  | virtualStorage refs fs c =>
    simp only [hb] at h
    obtain ⟨s, _, hs⟩ := bind_ok h
    simp only [Pure.pure, Except.pure, Except.ok.injEq] at hs
    subst hs; exact ⟨rfl, rfl, rfl⟩
  | placeholder => simp [hb] at h

theorem flatMap_nil_of {α β γ : Type} {r : α → β → Prop} {as : List α} {bs : List β} (h : List.Forall₂ r as bs) (g : β → List γ)
    (hr : ∀ a b, r a b → g b = []) : bs.flatMap g = [] := by
  induction h with
  | nil => rfl
  | cons hab _ ih => simp [hr _ _ hab, ih]

theorem Parts.nodes' {P N F Gs Vs Es} (h : Parts P N F Gs Vs Es) : F.nodes = Gs.flatMap (·.nodes) := by
  rw [h.nodes, flatMap_nil_of h.virtuals (·.nodes) (fun _ _ hv => (virtual_frag hv).1), List.append_nil]

theorem Parts.edges' {P N F Gs Vs Es} (h : Parts P N F Gs Vs Es) : F.edges = Gs.flatMap (·.edges) ++ Es.flatten := by
  rw [h.edges, flatMap_nil_of h.virtuals (·.edges) (fun _ _ hv => (virtual_frag hv).2.1), List.append_nil]

theorem Parts.params' {P N F Gs Vs Es} (h : Parts P N F Gs Vs Es) : F.params = Gs.flatMap (·.params) := by
  rw [h.params, flatMap_nil_of h.virtuals (·.params) (fun _ _ hv => (virtual_frag hv).2.2), List.append_nil]

/-! ## Everything a node makes carries its name -/

/-- All names begin with `x`. -/
structure Owned (x : String) (G : Frag) : Prop where
  nodes : ∀ d ∈ G.nodes, d.name.1 = x
  edges : ∀ e ∈ G.edges, e.src.1 = x ∧ e.dst.1 = x
  aggs : ∀ a ∈ G.aggs, a.name.1 = x
  stores : ∀ s ∈ G.stores, s.name.1 = x
  vs : G.vs = []

theorem Owned.add {x : String} {G H : Frag} (hG : Owned x G) (hH : Owned x H) : Owned x (G.add H) := by
  constructor
  · intro d hd; rcases List.mem_append.1 hd with h | h; exacts [hG.nodes d h, hH.nodes d h]
  · intro d hd; rcases List.mem_append.1 hd with h | h; exacts [hG.edges d h, hH.edges d h]
  · intro d hd; rcases List.mem_append.1 hd with h | h; exacts [hG.aggs d h, hH.aggs d h]
  · intro d hd; rcases List.mem_append.1 hd with h | h; exacts [hG.stores d h, hH.stores d h]
  · simp [Frag.add, hG.vs, hH.vs]

theorem Owned.empty (x : String) : Owned x {} := by constructor <;> simp

theorem owned_split (x : String) (ss : List Split) (i : Nat) : Owned x (splitLoop x ss i) := by
  induction ss generalizing i with
  | nil => exact Owned.empty x
  | cons s ss ih =>
    refine Owned.add ?_ (ih _)
    constructor <;> simp [splitName]

theorem owned_step (x : String) (ss : List FlowN) (i : Nat) : ∀ d ∈ stepLoop x ss i, d.name.1 = x := by
  induction ss generalizing i with
  | nil => simp [stepLoop]
  | cons s ss ih =>
    intro d hd
    rcases List.mem_cons.1 hd with rfl | h
    · rfl
    · exact ih _ d h

theorem owned_piece (P : ParamNo) (x : String) (n : PieceStoreN) (i : Nat) (u l c : Option Metric) (prior : List Metric) :
    Owned x (pieceFrag P x n i u l c prior) := by
  constructor <;> simp [pieceFrag, storeName]
  rintro e - (rfl | rfl) <;> simp

theorem owned_pieces (P : ParamNo) (x : String) (n : PieceStoreN) (ss : List Piece) (i : Nat) (l : Option Metric) (prior : List Metric) :
    Owned x (pieceLoop P x n ss i l prior) := by
  induction ss generalizing i l prior with
  | nil => exact owned_piece ..
  | cons s ss ih => exact (owned_piece ..).add (ih ..)

theorem owned_release (x : String) (n : ReservoirN) : Owned x (n.releaseFrag x) := by
  unfold ReservoirN.releaseFrag
  refine ((?_ : Owned x _).add ?_).add ?_
  · cases n.compensation <;> constructor <;> simp
  · cases n.spill <;> constructor <;> simp
  · split <;> constructor <;> simp

theorem owned (P : ParamNo) (n : SNode) (G : Frag) (h : n.frag P = .ok G) : Owned n.name G := by
  unfold SNode.frag at h
  cases hb : n.body with
  | input b => simp only [hb, Except.ok.injEq] at h; subst h; constructor <;> simp [FlowN.inputFrag]
  | output b => simp only [hb, Except.ok.injEq] at h; subst h; constructor <;> simp [FlowN.outputFrag]
  | storage b => simp only [hb, Except.ok.injEq] at h; subst h; constructor <;> simp [StorageN.frag]
  | catchment b => simp only [hb, Except.ok.injEq] at h; subst h; constructor <;> simp [CatchmentN.frag]
  | riverGauge b => simp only [hb, Except.ok.injEq] at h; subst h; constructor <;> simp [GaugeN.frag]
  | turbine b => simp only [hb, Except.ok.injEq] at h; subst h; constructor <;> simp [TurbineN.frag]
  | delay b => simp only [hb, Except.ok.injEq] at h; subst h; constructor <;> simp [DelayN.frag]
  | link b =>
    simp only [hb, Except.ok.injEq] at h; subst h
    unfold LinkN.frag
    cases b.softMin <;> cases b.softMax <;> constructor <;> simp
  | lossLink b =>
    simp only [hb, Except.ok.injEq] at h; subst h
    unfold LossLinkN.frag
    cases b.loss <;> constructor <;> simp
  | works b =>
    simp only [hb, Except.ok.injEq] at h; subst h
    unfold WorksN.frag
    cases b.loss with
    | none => constructor <;> simp
    | some l => cases hl : l.load <;> constructor <;> simp [hl]
  | river b =>
    simp only [hb, Except.ok.injEq] at h; subst h
    unfold RiverN.frag
    have hl : ∀ l : Loss, (RiverN.lossFrag n.name l).1.name.1 = n.name ∧ ∀ a ∈ (RiverN.lossFrag n.name l).2, a.name.1 = n.name := by
      intro l; unfold RiverN.lossFrag; cases l.load <;> simp
    have hr : ∀ r : Routing, (RiverN.routingFrag P n.name r).1.name.1 = n.name ∧
        ∀ a ∈ (RiverN.routingFrag P n.name r).2.1, a.name.1 = n.name := by
      intro r; cases r <;> simp [RiverN.routingFrag]
    cases hl' : b.loss <;> cases hr' : b.routing <;> constructor <;> simp [hl, hr]
    · exact (hr _).2
    · exact (hl _).2
    · intro a ha
      rcases ha with ha | ha
      · exact (hl _).2 a ha
      · exact (hr _).2 a ha
  | riverSplit b =>
    simp only [hb, Except.ok.injEq] at h; subst h
    refine (owned_split _ _ _).add ?_
    constructor <;> simp
  | pieceLink b =>
    simp only [hb, Except.ok.injEq] at h; subst h
    constructor <;> simp [PieceLinkN.frag]
    exact fun d hd => owned_step _ _ _ d hd
  | pieceStore b =>
    simp only [hb, Except.ok.injEq] at h; subst h
    refine (owned_pieces ..).add ?_
    constructor <;> simp
  | reservoir b =>
    simp only [hb] at h
    unfold ReservoirN.frag at h
    split at h
    · cases h
    · split at h
      · cases h
      · simp only [Except.ok.injEq] at h
        subst h
        refine (((?_ : Owned _ _).add (owned_release _ _)).add ?_).add ?_
        · constructor <;> simp [StorageN.frag]
        · cases b.area with
          | none => exact Owned.empty _
          | some a =>
            refine Owned.add ?_ ?_
            · cases b.rainfall <;> constructor <;> simp [ReservoirN.rainFrag]
            · cases b.evaporation <;> constructor <;> simp [ReservoirN.evapFrag]
        · cases b.leakage <;> constructor <;> simp [ReservoirN.leakFrag]
  | placeholder => simp [hb] at h
  | abstraction b =>
    simp only [hb] at h
    unfold AbstractionN.frag at h
    cases hm : b.mrf with
    | some m => simp only [hm, Except.ok.injEq] at h; subst h; constructor <;> simp
    | none =>
      simp only [hm] at h
      split at h
      · cases h
      · simp only [Except.ok.injEq] at h; subst h; constructor <;> simp

theorem inputs_owned (n : SNode) (s : Option Slot) (ns : List Name) (h : n.inputConnectors s = .ok ns) : ∀ c ∈ ns, c.1 = n.name := by
  have hi : n.inputs = .ok ns → ∀ c ∈ ns, c.1 = n.name := by
    intro h
    unfold SNode.inputs at h
    cases hb : n.body <;> simp only [hb, Except.ok.injEq] at h <;> subst h
    all_goals try simp [LinkN.names, grossNames, SplitN.names, PieceLinkN.names, stepName, splitName, storeName]
    all_goals try split
    all_goals aesop
  unfold SNode.inputConnectors at h
  split at h
  · exact hi h
  · cases h
  · exact hi h

theorem outputs_owned (n : SNode) (s : Option Slot) (ns : List Name) (h : n.outputConnectors s = .ok ns) : ∀ c ∈ ns, c.1 = n.name := by
  have hi : n.outputs = .ok ns → ∀ c ∈ ns, c.1 = n.name := by
    intro h
    unfold SNode.outputs at h
    cases hb : n.body <;> simp only [hb, Except.ok.injEq] at h <;> subst h
    all_goals try simp [LinkN.names, PieceLinkN.names, stepName, storeName]
    all_goals try split
    all_goals aesop
  unfold SNode.outputConnectors at h
  cases hb : n.body <;> simp only [hb] at h
  all_goals first
    | (cases s with
       | none => exact hi h
       | some s => simp at h)
    | skip
  all_goals
    repeat' (split at h)
  all_goals first
    | (cases h; done)
    | (simp only [Except.ok.injEq] at h; subst h; simp [SplitN.names, splitName])

end Verif.Schema
