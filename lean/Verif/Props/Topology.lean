import Mathlib.Data.List.Basic
import Mathlib.Data.List.Nodup
import Verif.Spec.Topology

/-!
# Properties of the network topology (C49)
-/

namespace Verif.Topology

open Verif.State (NodeKind Edge)

/-! ## Lemmas -/

theorem lookup_append {κ ν : Type} [DecidableEq κ] (k : κ) (a b : List (κ × ν)) :
    lookup k (a ++ b) = (lookup k a).or (lookup k b) := by
  induction a with
  | nil => simp [lookup]
  | cons x xs ih =>
    obtain ⟨k', v⟩ := x
    simp only [List.cons_append, lookup]
    split_ifs <;> simp [ih]

theorem lookup_isSome {κ ν : Type} [DecidableEq κ] (k : κ) (a : List (κ × ν)) :
    (lookup k a).isSome = true ↔ k ∈ a.map (·.1) := by
  induction a with
  | nil => simp [lookup]
  | cons x xs ih =>
    obtain ⟨k', v⟩ := x
    simp only [lookup, List.map_cons, List.mem_cons]
    split_ifs with h
    · simp [h]
    · rw [ih]
      constructor
      · exact Or.inr
      · rintro (h' | h')
        · exact absurd h'.symm h
        · exact h'

theorem lookup_eq_none {κ ν : Type} [DecidableEq κ] (k : κ) (a : List (κ × ν)) :
    lookup k a = none ↔ k ∉ a.map (·.1) := by
  rw [← lookup_isSome]
  cases lookup k a <;> simp

theorem lookup_zipIdx {κ : Type} [DecidableEq κ] (k : κ) (ks : List κ) (n i : Nat) (h : ks.Nodup) :
    lookup k (ks.zipIdx n) = some i ↔ n ≤ i ∧ ks[i - n]? = some k := by
  induction ks generalizing n with
  | nil => simp [lookup]
  | cons x xs ih =>
    rw [List.nodup_cons] at h
    simp only [List.zipIdx_cons, lookup]
    split_ifs with hx
    · subst hx
      simp only [Option.some.injEq]
      constructor
      · rintro rfl; simp
      · rintro ⟨h1, h2⟩
        by_contra hne
        have : i - n = (i - n - 1) + 1 := by omega
        rw [this, List.getElem?_cons_succ] at h2
        exact h.1 (List.mem_of_getElem? h2)
    · rw [ih (n + 1) h.2]
      constructor
      · rintro ⟨h1, h2⟩
        refine ⟨by omega, ?_⟩
        have : i - n = (i - (n + 1)) + 1 := by omega
        rw [this, List.getElem?_cons_succ]; exact h2
      · rintro ⟨h1, h2⟩
        rcases Nat.eq_or_lt_of_le h1 with h3 | h3
        · subst h3
          simp only [Nat.sub_self, List.getElem?_cons_zero, Option.some.injEq] at h2
          exact absurd h2 hx
        · refine ⟨h3, ?_⟩
          have : i - n = (i - (n + 1)) + 1 := by omega
          rw [this, List.getElem?_cons_succ] at h2; exact h2

theorem indexLoop_spec {κ : Type} [DecidableEq κ] (dup : κ → Err) (ks : List κ) :
    ∀ (i : Nat) (map : List (κ × Nat)),
    ((∃ m, indexLoop dup ks i map = .ok m) ↔ (ks.Nodup ∧ ∀ k ∈ ks, k ∉ map.map (·.1))) ∧
    (∀ m, indexLoop dup ks i map = .ok m → m = map ++ ks.zipIdx i) := by
  induction ks with
  | nil => intro i map; simp [indexLoop, eq_comm]
  | cons k ks ih =>
    intro i map
    simp only [indexLoop]
    obtain ⟨ih1, ih2⟩ := ih (i + 1) (map ++ [(k, i)])
    cases hk : lookup k map with
    | some v =>
      have : k ∈ map.map (·.1) := by rw [← lookup_isSome, hk]; rfl
      constructor
      · simp only [reduceCtorEq, exists_false, false_iff, not_and]
        intro _ h
        exact h k (by simp) this
      · intro m h; simp at h
    | none =>
      rw [lookup_eq_none] at hk
      refine ⟨?_, ?_⟩
      · simp only [ih1, List.nodup_cons, List.mem_cons, List.map_append, List.map_cons, List.map_nil, List.mem_append,
          List.not_mem_nil, or_false, not_or]
        constructor
        · rintro ⟨h1, h2⟩
          refine ⟨⟨fun hm => (h2 k hm).2 rfl, h1⟩, ?_⟩
          rintro x (rfl | hx)
          · exact hk
          · exact (h2 x hx).1
        · rintro ⟨⟨h1, h2⟩, h3⟩
          refine ⟨h2, fun x hx => ⟨h3 x (Or.inr hx), fun he => h1 (he ▸ hx)⟩⟩
      · intro m h
        rw [ih2 m h, List.zipIdx_cons, List.append_assoc, List.singleton_append]

theorem lookup_pushEntry (k v j : Nat) (m : List (Nat × List Nat)) :
    (lookup j (pushEntry k v m)).getD [] = if j = k then (lookup j m).getD [] ++ [v] else (lookup j m).getD [] := by
  induction m with
  | nil =>
    simp only [pushEntry, lookup]
    by_cases h : k = j
    · subst h; simp
    · rw [if_neg h, if_neg (fun e => h e.symm)]
  | cons x xs ih =>
    obtain ⟨k', vs⟩ := x
    simp only [pushEntry]
    by_cases h1 : k' = k
    · subst h1
      rw [if_pos rfl]
      simp only [lookup]
      by_cases h2 : k' = j
      · subst h2; simp
      · rw [if_neg h2, if_neg h2, if_neg (fun e => h2 e.symm)]
    · rw [if_neg h1]
      simp only [lookup]
      by_cases h2 : k' = j
      · subst h2; simp [h1]
      · rw [if_neg h2, if_neg h2]; exact ih

/-- Positions of the edges whose end (selected by `f`) has index `j`. -/
def at_ (names : List (Name × Nat)) (f : EdgeDecl → Name) (es : List EdgeDecl) (i j : Nat) : List Nat :=
  ((es.zipIdx i).filter (fun p => lookup (f p.1) names = some j)).map (·.2)

theorem edgeMapsLoop_spec (names : List (Name × Nat)) (es : List EdgeDecl) : ∀ (i : Nat) (m : EdgeMaps),
    ((∃ m', edgeMapsLoop names es i m = .ok m') ↔
      ∀ e ∈ es, ∃ f t, lookup e.src names = some f ∧ lookup e.dst names = some t ∧ f ≠ t) ∧
    (∀ m', edgeMapsLoop names es i m = .ok m' → ∀ j,
      (lookup j m'.incoming).getD [] = (lookup j m.incoming).getD [] ++ at_ names EdgeDecl.dst es i j ∧
      (lookup j m'.outgoing).getD [] = (lookup j m.outgoing).getD [] ++ at_ names EdgeDecl.src es i j) := by
  induction es with
  | nil =>
    intro i m
    refine ⟨by simp [edgeMapsLoop], fun m' h j => ?_⟩
    simp only [edgeMapsLoop, Except.ok.injEq] at h
    subst h
    simp [at_]
  | cons e es ih =>
    intro i m
    simp only [edgeMapsLoop]
    cases hf : lookup e.src names with
    | none =>
      refine ⟨⟨by simp, fun h => ?_⟩, by simp⟩
      obtain ⟨f, t, h1, _⟩ := h e (by simp)
      rw [hf] at h1; simp at h1
    | some f =>
      cases ht : lookup e.dst names with
      | none =>
        refine ⟨⟨by simp, fun h => ?_⟩, by simp⟩
        obtain ⟨f, t, _, h1, _⟩ := h e (by simp)
        rw [ht] at h1; simp at h1
      | some t =>
        simp only
        split_ifs with hft
        · refine ⟨⟨by simp, fun h => ?_⟩, by simp⟩
          obtain ⟨f', t', h1, h2, h3⟩ := h e (by simp)
          rw [hf] at h1; rw [ht] at h2
          cases h1; cases h2
          exact absurd hft h3
        · obtain ⟨ih1, ih2⟩ := ih (i + 1) ⟨pushEntry t i m.incoming, pushEntry f i m.outgoing⟩
          constructor
          · rw [ih1]
            constructor
            · intro h e' he'
              rcases List.mem_cons.1 he' with rfl | he'
              · exact ⟨f, t, hf, ht, hft⟩
              · exact h e' he'
            · intro h e' he'; exact h e' (by simp [he'])
          · intro m' h j
            obtain ⟨h1, h2⟩ := ih2 m' h j
            rw [h1, h2, lookup_pushEntry, lookup_pushEntry]
            constructor
            · simp only [at_, List.zipIdx_cons, List.filter_cons, ht, Option.some.injEq]
              by_cases hj : t = j
              · subst hj; simp
              · simp [hj, Ne.symm hj]
            · simp only [at_, List.zipIdx_cons, List.filter_cons, hf, Option.some.injEq]
              by_cases hj : f = j
              · subst hj; simp
              · simp [hj, Ne.symm hj]

theorem membersLoop_spec (names : List (Name × Nat)) (vi : Nat) (ns : List Name) : ∀ m : List (Nat × List Nat),
    ((∃ m', membersLoop names vi ns m = .ok m') ↔ ∀ n ∈ ns, (lookup n names).isSome = true) ∧
    (∀ m', membersLoop names vi ns m = .ok m' → ∀ j, (lookup j m').getD [] = (lookup j m).getD [] ++
      (ns.filter (fun n => lookup n names = some j)).map (fun _ => vi)) := by
  induction ns with
  | nil => intro m; refine ⟨by simp [membersLoop], fun m' h j => ?_⟩; simp only [membersLoop, Except.ok.injEq] at h; subst h; simp
  | cons n ns ih =>
    intro m
    simp only [membersLoop]
    cases hn : lookup n names with
    | none =>
      refine ⟨⟨by simp, fun h => ?_⟩, by simp⟩
      have := h n (by simp)
      rw [hn] at this; simp at this
    | some i =>
      obtain ⟨ih1, ih2⟩ := ih (pushEntry i vi m)
      refine ⟨?_, fun m' h j => ?_⟩
      · simp only [ih1, List.mem_cons, forall_eq_or_imp, hn, Option.isSome_some, true_and]
      · rw [ih2 m' h j, lookup_pushEntry]
        simp only [List.filter_cons, hn, Option.some.injEq]
        by_cases hj : i = j
        · subst hj; simp
        · simp [hj, Ne.symm hj]

theorem associatedLoop_spec (names : List (Name × Nat)) (vs : List VSDecl) : ∀ (i : Nat) (m : List (Nat × List Nat)),
    ((∃ m', associatedLoop names vs i m = .ok m') ↔ ∀ v ∈ vs, ∀ n ∈ v.members, (lookup n names).isSome = true) ∧
    (∀ m', associatedLoop names vs i m = .ok m' → ∀ j, (lookup j m').getD [] = (lookup j m).getD [] ++
      (vs.zipIdx i).flatMap (fun p => (p.1.members.filter (fun n => lookup n names = some j)).map (fun _ => p.2))) := by
  induction vs with
  | nil =>
    intro i m
    refine ⟨by simp [associatedLoop], fun m' h j => ?_⟩
    simp only [associatedLoop, Except.ok.injEq] at h; subst h; simp
  | cons v vs ih =>
    intro i m
    simp only [associatedLoop]
    obtain ⟨h1, h2⟩ := membersLoop_spec names i v.members m
    cases hm : membersLoop names i v.members m with
    | error e =>
      refine ⟨⟨by simp, fun h => ?_⟩, by simp⟩
      obtain ⟨m', hm'⟩ := h1.2 (h v (by simp))
      rw [hm] at hm'; simp at hm'
    | ok m₁ =>
      obtain ⟨ih1, ih2⟩ := ih (i + 1) m₁
      refine ⟨?_, fun m' h j => ?_⟩
      · simp only [ih1, List.mem_cons, forall_eq_or_imp]
        constructor
        · intro h; exact ⟨h1.1 ⟨m₁, hm⟩, h⟩
        · intro h; exact h.2
      · rw [ih2 m' h j, h2 m₁ hm j, List.zipIdx_cons, List.flatMap_cons, List.append_assoc]

theorem buildEdges_spec (names : List (Name × Nat)) (es : List EdgeDecl) : ∀ i,
    ((∃ out, buildEdges names es i = .ok out) ↔
      ∀ e ∈ es, (lookup e.src names).isSome = true ∧ (lookup e.dst names).isSome = true) ∧
    (∀ out, buildEdges names es i = .ok out → out.length = es.length ∧
      ∀ (k : Nat) (e : EdgeDecl), es[k]? = some e → ∃ f t, lookup e.src names = some f ∧ lookup e.dst names = some t ∧
        out[k]? = some ⟨i + k, f, t⟩) := by
  induction es with
  | nil => intro i; simp [buildEdges]
  | cons e es ih =>
    intro i
    obtain ⟨ih1, ih2⟩ := ih (i + 1)
    simp only [buildEdges]
    cases hf : lookup e.src names with
    | none =>
      refine ⟨⟨by simp, fun h => ?_⟩, by simp⟩
      have := (h e (by simp)).1
      rw [hf] at this; simp at this
    | some f =>
      cases ht : lookup e.dst names with
      | none =>
        refine ⟨⟨by simp, fun h => ?_⟩, by simp⟩
        have := (h e (by simp)).2
        rw [ht] at this; simp at this
      | some t =>
        cases hr : buildEdges names es (i + 1) with
        | error err =>
          refine ⟨⟨by simp, fun h => ?_⟩, by simp⟩
          obtain ⟨out, ho⟩ := ih1.2 (fun e' he' => h e' (by simp [he']))
          rw [hr] at ho; simp at ho
        | ok rest =>
          constructor
          · constructor
            · intro _ e' he'
              rcases List.mem_cons.1 he' with rfl | he'
              · simp [hf, ht]
              · exact ih1.1 ⟨rest, hr⟩ e' he'
            · intro _; exact ⟨_, rfl⟩
          · intro out h
            simp only [Except.ok.injEq] at h
            subst h
            obtain ⟨h1, h2⟩ := ih2 rest hr
            refine ⟨by simp [h1], fun k e' hk => ?_⟩
            cases k with
            | zero => simp only [List.getElem?_cons_zero, Option.some.injEq] at hk; subst hk; exact ⟨f, t, hf, ht, by simp⟩
            | succ k =>
              obtain ⟨f', t', ha, hb, hc⟩ := h2 k e' (by simpa using hk)
              refine ⟨f', t', ha, hb, ?_⟩
              rw [List.getElem?_cons_succ, hc]
              simp; omega

theorem buildNodes_spec (names : List (Name × Nat)) (m : EdgeMaps) (assoc : List (Nat × List Nat)) (ds : List NodeDecl) :
    ((∃ out, buildNodes names m assoc ds = .ok out) ↔ ∀ d ∈ ds, ∃ n, buildNode names m assoc d = .ok n) ∧
    (∀ out, buildNodes names m assoc ds = .ok out → out.length = ds.length ∧
      ∀ (k : Nat) (d : NodeDecl), ds[k]? = some d → ∃ n, buildNode names m assoc d = .ok n ∧ out[k]? = some n) := by
  induction ds with
  | nil => simp [buildNodes]
  | cons d ds ih =>
    obtain ⟨ih1, ih2⟩ := ih
    simp only [buildNodes]
    cases hd : buildNode names m assoc d with
    | error e =>
      refine ⟨⟨by simp, fun h => ?_⟩, by simp⟩
      obtain ⟨n, hn⟩ := h d (by simp)
      rw [hd] at hn; simp at hn
    | ok n =>
      cases hr : buildNodes names m assoc ds with
      | error e =>
        refine ⟨⟨by simp, fun h => ?_⟩, by simp⟩
        obtain ⟨n, hn⟩ := ih1.2 (fun d' hd' => h d' (by simp [hd']))
        rw [hr] at hn; simp at hn
      | ok rest =>
        constructor
        · refine ⟨fun _ d' hd' => ?_, fun _ => ⟨_, rfl⟩⟩
          rcases List.mem_cons.1 hd' with rfl | hd'
          · exact ⟨n, hd⟩
          · exact ih1.1 ⟨rest, hr⟩ d' hd'
        · intro out h
          simp only [Except.ok.injEq] at h
          subst h
          obtain ⟨h1, h2⟩ := ih2 rest hr
          refine ⟨by simp [h1], fun k d' hk => ?_⟩
          cases k with
          | zero => simp only [List.getElem?_cons_zero, Option.some.injEq] at hk; subst hk; exact ⟨n, hd, by simp⟩
          | succ k => simpa using h2 k d' (by simpa using hk)

theorem buildNode_spec (names : List (Name × Nat)) (m : EdgeMaps) (assoc : List (Nat × List Nat)) (d : NodeDecl) (i : Nat)
    (hi : lookup d.name names = some i) :
    ((∃ n, buildNode names m assoc d = .ok n) ↔
      Connected d.kind ((lookup i m.incoming).getD []) ((lookup i m.outgoing).getD [])) ∧
    (∀ n, buildNode names m assoc d = .ok n →
      n = ⟨i, d.name, d.kind, (lookup i m.incoming).getD [], (lookup i m.outgoing).getD [], (lookup i assoc).getD []⟩) := by
  simp only [buildNode, hi]
  generalize (lookup i m.incoming).getD [] = a
  generalize (lookup i m.outgoing).getD [] = b
  cases d.kind <;> cases a <;> cases b <;> simp [Connected, eq_comm]

/-- The maps read back by name. -/
theorem at_eq (b : Builder) (hn : (b.nodes.map (·.name)).Nodup) (f : EdgeDecl → Name) (j : Nat) (d : NodeDecl)
    (hd : b.nodes[j]? = some d) :
    at_ ((b.nodes.map (·.name)).zipIdx) f b.edges 0 j = ((b.edges.zipIdx.filter (fun p => f p.1 = d.name)).map (·.2)) := by
  unfold at_
  congr 1
  apply List.filter_congr
  intro p _
  rw [decide_eq_decide, lookup_zipIdx _ _ _ _ hn]
  simp only [Nat.zero_le, Nat.sub_zero, List.getElem?_map, hd, Option.map_some, Option.some.injEq, true_and]
  exact eq_comm

theorem lookup_names (b : Builder) (hn : (b.nodes.map (·.name)).Nodup) (n : Name) (j : Nat) :
    lookup n ((b.nodes.map (·.name)).zipIdx) = some j ↔ (b.nodes.map (·.name))[j]? = some n := by
  rw [lookup_zipIdx _ _ _ _ hn]; simp

theorem lookup_names_isSome (b : Builder) (n : Name) :
    (lookup n ((b.nodes.map (·.name)).zipIdx)).isSome = true ↔ n ∈ b.nodes.map (·.name) := by
  rw [lookup_isSome, List.zipIdx_map_fst]

/-! ## C49 -/

/-- C49, acceptance: a declaration is accepted exactly when node names, edges and virtual storage names are not repeated,
every edge joins two different declared nodes, every member of a virtual storage is declared, and every node obeys the
connectivity rule of its type. -/
theorem C49_build_iff (b : Builder) : (∃ net, b.build = .ok net) ↔ Valid b := by
  unfold Builder.build
  obtain ⟨n1, n2⟩ := indexLoop_spec .duplicateNodeName (b.nodes.map (·.name)) 0 []
  obtain ⟨e1, _⟩ := indexLoop_spec .duplicateEdge b.edges 0 []
  obtain ⟨v1, _⟩ := indexLoop_spec .duplicateVirtualStorageName (b.vs.map (·.name)) 0 []
  cases hn : indexLoop .duplicateNodeName (b.nodes.map (·.name)) 0 [] with
  | error e =>
    refine ⟨by simp, fun h => ?_⟩
    obtain ⟨m, hm⟩ := n1.2 ⟨h.nodes, by simp⟩
    rw [hn] at hm; simp at hm
  | ok names =>
    have hnd := (n1.1 ⟨names, hn⟩).1
    have hnames := n2 names hn
    simp only [List.nil_append] at hnames
    subst hnames
    cases he : indexLoop .duplicateEdge b.edges 0 [] with
    | error e =>
      refine ⟨by simp, fun h => ?_⟩
      obtain ⟨m, hm⟩ := e1.2 ⟨h.edges, by simp⟩
      rw [he] at hm; simp at hm
    | ok _ =>
      have hed := (e1.1 ⟨_, he⟩).1
      obtain ⟨m1, m2⟩ := edgeMapsLoop_spec ((b.nodes.map (·.name)).zipIdx) b.edges 0 ⟨[], []⟩
      cases hm : edgeMapsLoop ((b.nodes.map (·.name)).zipIdx) b.edges 0 ⟨[], []⟩ with
      | error e =>
        refine ⟨by simp [hm], fun h => ?_⟩
        obtain ⟨m, hm'⟩ := m1.2 (fun e he => by
          obtain ⟨ha, hb⟩ := h.ends e he
          rw [← lookup_names_isSome] at ha hb
          obtain ⟨f, hf⟩ := Option.isSome_iff_exists.1 ha
          obtain ⟨t, ht⟩ := Option.isSome_iff_exists.1 hb
          refine ⟨f, t, hf, ht, fun hft => ?_⟩
          subst hft
          rw [lookup_names b hnd] at hf ht
          exact h.noSelf e he (by simpa using hf.symm.trans ht))
        rw [hm] at hm'; simp at hm'
      | ok maps =>
        have hedges := m1.1 ⟨maps, hm⟩
        cases hv : indexLoop .duplicateVirtualStorageName (b.vs.map (·.name)) 0 [] with
        | error e =>
          refine ⟨by simp [hm], fun h => ?_⟩
          obtain ⟨m, hm⟩ := v1.2 ⟨h.storages, by simp⟩
          rw [hv] at hm; simp at hm
        | ok _ =>
          have hvd := (v1.1 ⟨_, hv⟩).1
          obtain ⟨a1, _⟩ := associatedLoop_spec ((b.nodes.map (·.name)).zipIdx) b.vs 0 []
          cases ha : associatedLoop ((b.nodes.map (·.name)).zipIdx) b.vs 0 [] with
          | error e =>
            refine ⟨by simp [hm, ha], fun h => ?_⟩
            obtain ⟨m, hm⟩ := a1.2 (fun v hv n hn => (lookup_names_isSome b n).2 (h.members v hv n hn))
            rw [ha] at hm; simp at hm
          | ok assoc =>
            have hmem := a1.1 ⟨assoc, ha⟩
            -- a node is built iff it is connected
            have hnode : ∀ d ∈ b.nodes, (∃ n, buildNode ((b.nodes.map (·.name)).zipIdx) maps assoc d = .ok n) ↔
                Connected d.kind (edgesInto b d.name) (edgesFrom b d.name) := by
              intro d hd
              obtain ⟨j, hj⟩ := List.mem_iff_getElem?.1 hd
              have hl : lookup d.name ((b.nodes.map (·.name)).zipIdx) = some j := by
                rw [lookup_names b hnd, List.getElem?_map, hj]; rfl
              rw [(buildNode_spec _ maps assoc d j hl).1]
              obtain ⟨hin, hout⟩ := m2 maps hm j
              rw [hin, hout, at_eq b hnd _ j d hj, at_eq b hnd _ j d hj]
              simp [lookup, edgesInto, edgesFrom]
            obtain ⟨b1, _⟩ := buildNodes_spec ((b.nodes.map (·.name)).zipIdx) maps assoc b.nodes
            cases hb : buildNodes ((b.nodes.map (·.name)).zipIdx) maps assoc b.nodes with
            | error e =>
              refine ⟨by simp [hm, ha, hb], fun h => ?_⟩
              obtain ⟨m, hm⟩ := b1.2 (fun d hd => (hnode d hd).2 (h.connected d hd))
              rw [hb] at hm; simp at hm
            | ok nodes =>
              have hconn := b1.1 ⟨nodes, hb⟩
              obtain ⟨g1, _⟩ := buildEdges_spec ((b.nodes.map (·.name)).zipIdx) b.edges 0
              have hvalid : Valid b := by
                refine ⟨hnd, hed, fun e he => ?_, fun e he hse => ?_, hvd, fun v hv n hn => ?_, fun d hd => ?_⟩
                · obtain ⟨f, t, h1, h2, _⟩ := hedges e he
                  exact ⟨(lookup_names_isSome b _).1 (by rw [h1]; rfl), (lookup_names_isSome b _).1 (by rw [h2]; rfl)⟩
                · obtain ⟨f, t, h1, h2, h3⟩ := hedges e he
                  rw [hse, h2] at h1
                  cases h1
                  exact h3 rfl
                · exact (lookup_names_isSome b n).1 (hmem v hv n hn)
                · exact (hnode d hd).1 (hconn d hd)
              obtain ⟨out, hg⟩ := g1.2 (fun e he => by
                obtain ⟨f, t, h1, h2, _⟩ := hedges e he
                rw [h1, h2]; simp)
              simp only [hm, ha, hb, hg]
              exact ⟨fun _ => hvalid, fun _ => ⟨_, rfl⟩⟩

/-- C49, content: a built network has one node per declaration, at the same position, with the declared name and type, and
its incoming and outgoing edges and virtual storages are exactly the declared ones; every edge joins the nodes named. -/
theorem C49_topology (b : Builder) (net : Network) (h : b.build = .ok net) :
    net.nodes.length = b.nodes.length ∧ net.edges.length = b.edges.length ∧
    (∀ (k : Nat) (d : NodeDecl), b.nodes[k]? = some d →
      net.nodes[k]? = some ⟨k, d.name, d.kind, edgesInto b d.name, edgesFrom b d.name, storagesOf b d.name⟩) ∧
    (∀ (k : Nat) (e : EdgeDecl), b.edges[k]? = some e → ∃ f t, net.edges[k]? = some ⟨k, f, t⟩ ∧
      (b.nodes[f]?).map (·.name) = some e.src ∧ (b.nodes[t]?).map (·.name) = some e.dst) := by
  have hvalid := (C49_build_iff b).1 ⟨net, h⟩
  have hnd := hvalid.nodes
  unfold Builder.build at h
  cases hn : indexLoop .duplicateNodeName (b.nodes.map (·.name)) 0 [] with
  | error e => simp [hn] at h
  | ok names =>
    have hnames := (indexLoop_spec .duplicateNodeName (b.nodes.map (·.name)) 0 []).2 names hn
    simp only [List.nil_append] at hnames
    subst hnames
    simp only [hn] at h
    cases he : indexLoop .duplicateEdge b.edges 0 [] with
    | error e => simp [he] at h
    | ok _ =>
      simp only [he] at h
      cases hm : edgeMapsLoop ((b.nodes.map (·.name)).zipIdx) b.edges 0 ⟨[], []⟩ with
      | error e => simp [hm] at h
      | ok maps =>
        simp only [hm] at h
        cases hv : indexLoop .duplicateVirtualStorageName (b.vs.map (·.name)) 0 [] with
        | error e => simp [hv] at h
        | ok _ =>
          simp only [hv] at h
          cases ha : associatedLoop ((b.nodes.map (·.name)).zipIdx) b.vs 0 [] with
          | error e => simp [ha] at h
          | ok assoc =>
            simp only [ha] at h
            cases hb : buildNodes ((b.nodes.map (·.name)).zipIdx) maps assoc b.nodes with
            | error e => simp [hb] at h
            | ok nodes =>
              simp only [hb] at h
              cases hg : buildEdges ((b.nodes.map (·.name)).zipIdx) b.edges 0 with
              | error e => simp [hg] at h
              | ok edges =>
                simp only [hg, Except.ok.injEq] at h
                subst h
                obtain ⟨hl, hk⟩ := (buildNodes_spec _ maps assoc b.nodes).2 nodes hb
                obtain ⟨hel, hek⟩ := (buildEdges_spec _ b.edges 0).2 edges hg
                refine ⟨hl, hel, fun k d hd => ?_, fun k e hke => ?_⟩
                · obtain ⟨n, hn1, hn2⟩ := hk k d hd
                  have hlk : lookup d.name ((b.nodes.map (·.name)).zipIdx) = some k := by
                    rw [lookup_names b hnd, List.getElem?_map, hd]; rfl
                  rw [hn2, (buildNode_spec _ maps assoc d k hlk).2 n hn1]
                  obtain ⟨hin, hout⟩ := (edgeMapsLoop_spec _ b.edges 0 ⟨[], []⟩).2 maps hm k
                  have hass := (associatedLoop_spec _ b.vs 0 []).2 assoc ha k
                  rw [hin, hout, hass, at_eq b hnd _ k d hd, at_eq b hnd _ k d hd]
                  simp only [lookup, Option.getD_none, List.nil_append, edgesInto, edgesFrom, storagesOf,
                    Option.some.injEq, TNode.mk.injEq, true_and]
                  congr 1
                  funext p
                  congr 1
                  apply List.filter_congr
                  intro x _
                  rw [decide_eq_decide, lookup_names b hnd, List.getElem?_map, hd]
                  simp [eq_comm]
                · obtain ⟨f, t, h1, h2, h3⟩ := hek k e hke
                  rw [lookup_names b hnd, List.getElem?_map] at h1 h2
                  exact ⟨f, t, by simpa using h3, h1, h2⟩

/-- The incoming and outgoing lists of the nodes agree with the ends of the edges, in the built network. -/
theorem C49_edges_of_nodes (b : Builder) (net : Network) (h : b.build = .ok net) (k : Nat) (n : TNode)
    (hn : net.nodes[k]? = some n) :
    n.incoming = (net.edges.filter (fun e => e.toNode = k)).map (·.index) ∧
    n.outgoing = (net.edges.filter (fun e => e.fromNode = k)).map (·.index) := by
  have hvalid := (C49_build_iff b).1 ⟨net, h⟩
  obtain ⟨hl, hel, hnodes, hedges⟩ := C49_topology b net h
  have hk : k < b.nodes.length := by rw [← hl]; exact (List.getElem?_eq_some_iff.1 hn).1
  have hd := List.getElem?_eq_getElem hk
  rw [hnodes k _ hd] at hn
  simp only [Option.some.injEq] at hn
  subst hn
  -- names determine indices
  have huniq : ∀ (j : Nat) (nm : Name), (b.nodes[j]?).map (·.name) = some nm → (nm = (b.nodes[k]).name ↔ j = k) := by
    intro j nm hj
    constructor
    · intro he
      subst he
      rw [← List.getElem?_map] at hj
      have hk' : (b.nodes.map (·.name))[k]? = some (b.nodes[k]).name := by rw [List.getElem?_map, hd]; rfl
      obtain ⟨l1, e1⟩ := List.getElem?_eq_some_iff.1 hj
      obtain ⟨l2, e2⟩ := List.getElem?_eq_some_iff.1 hk'
      exact (List.Nodup.getElem_inj_iff hvalid.nodes).1 (e1.trans e2.symm)
    · rintro rfl
      rw [hd] at hj
      simpa using hj.symm
  -- both lists, edge by edge
  have key : ∀ (p : EdgeDecl → Prop) (q : Edge → Prop) [DecidablePred p] [DecidablePred q]
      (es : List EdgeDecl) (xs : List Edge) (i : Nat), es.length = xs.length →
      (∀ (j : Nat) (e : EdgeDecl), es[j]? = some e → ∃ x, xs[j]? = some x ∧ x.index = i + j ∧ (p e ↔ q x)) →
      ((es.zipIdx i).filter (fun r => p r.1)).map (·.2) = (xs.filter (fun x => q x)).map (·.index) := by
    intro p q _ _ es
    induction es with
    | nil => intro xs i hlen _; simp at hlen; have := List.length_eq_zero_iff.1 hlen.symm; subst this; rfl
    | cons e es ih =>
      intro xs i hlen hj
      cases xs with
      | nil => simp at hlen
      | cons x xs =>
        obtain ⟨x', hx', hidx, hpq⟩ := hj 0 e rfl
        simp only [List.getElem?_cons_zero, Option.some.injEq] at hx'
        subst hx'
        have ih' := ih xs (i + 1) (by simpa using hlen) (fun j e' he' => by
          obtain ⟨x', h1, h2, h3⟩ := hj (j + 1) e' (by simpa using he')
          exact ⟨x', by simpa using h1, by omega, h3⟩)
        simp only [List.zipIdx_cons, List.filter_cons]
        by_cases hp : p e
        · simp only [hp, hpq.1 hp, decide_true, if_true, List.map_cons, ih']
          simp at hidx
          rw [hidx]
        · have hq : ¬ q x := fun hq => hp (hpq.2 hq)
          simp only [hp, hq, decide_false, Bool.false_eq_true, if_false, ih']
  constructor
  · refine key (fun e => e.dst = (b.nodes[k]).name) (fun e => e.toNode = k) b.edges net.edges 0 hel.symm ?_
    intro j e he
    obtain ⟨f, t, h1, _, h3⟩ := hedges j e he
    exact ⟨_, h1, by simp, huniq t _ h3⟩
  · refine key (fun e => e.src = (b.nodes[k]).name) (fun e => e.fromNode = k) b.edges net.edges 0 hel.symm ?_
    intro j e he
    obtain ⟨f, t, h1, h2, _⟩ := hedges j e he
    exact ⟨_, h1, by simp, huniq f _ h2⟩

/-! ## Concrete cases -/

/-- A river with a reservoir, a link and a demand. -/
def sample : Builder :=
  { nodes := [⟨("in", none), .input⟩, ⟨("res", none), .storage⟩, ⟨("mid", some "a"), .link⟩, ⟨("out", none), .output⟩]
    edges := [⟨("in", none), ("res", none)⟩, ⟨("res", none), ("mid", some "a")⟩, ⟨("in", none), ("mid", some "a")⟩,
      ⟨("mid", some "a"), ("out", none)⟩]
    vs := [⟨("licence", none), [("mid", some "a"), ("in", none)]⟩] }

example : ∃ net, sample.build = .ok net ∧ net.nodes.map (·.incoming) = [[], [0], [1, 2], [3]] ∧
    net.nodes.map (·.outgoing) = [[0, 2], [1], [3], []] ∧ net.nodes.map (·.associatedVs) = [[0], [], [0], []] ∧
    net.edges = [⟨0, 0, 1⟩, ⟨1, 1, 2⟩, ⟨2, 0, 2⟩, ⟨3, 2, 3⟩] :=
  ⟨_, rfl, by decide, by decide, by decide, by decide⟩

example : (Builder.mk sample.nodes (sample.edges ++ [⟨("out", none), ("mid", some "a")⟩]) []).build
    = .error (.unexpectedOutgoingEdges ("out", none) 1) := by decide

end Verif.Topology
