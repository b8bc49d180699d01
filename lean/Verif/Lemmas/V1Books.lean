import Verif.Lemmas.V1Keep

/-! # The names that a whole conversion introduces -/

namespace Verif.V1

/-- Distinct names, each written or made up for one of several components. -/
def Books (ws bs : List String) (L : List String) : Prop :=
  L.Nodup ∧ ∀ n ∈ L, n ∈ ws ∨ ∃ b ∈ bs, ∃ k, n = madeUp (some b) k

theorem Books.nil {ws bs : List String} : Books ws bs [] := ⟨List.nodup_nil, fun n hn => by cases hn⟩

theorem Books.mono {ws bs ws' bs' L : List String} (h : Books ws bs L) (hw : ws ⊆ ws') (hb : bs ⊆ bs') :
    Books ws' bs' L := by
  refine ⟨h.1, fun n hn => ?_⟩
  rcases h.2 n hn with h1 | ⟨b, h1, k, h2⟩
  · exact .inl (hw h1)
  · exact .inr ⟨b, hb h1, k, h2⟩

theorem Books.fresh {ws bs L ex : List String} {b : String} (h : Books ws bs L) (hc : Clean (ws ++ ex)) (hb : b ∉ bs)
    {n : String} (hn : n ∈ L) : n ∉ ex ∧ ∀ k, n ≠ madeUp (some b) k := by
  rcases h.2 n hn with h1 | ⟨b', h1, k', h2⟩
  · exact ⟨fun he => (List.nodup_append.1 hc.1).2.2 n h1 n he rfl,
      fun k => hc.2 n (List.mem_append_left _ h1) _ _⟩
  · refine ⟨fun he => hc.2 n (List.mem_append_right _ he) _ _ h2, fun k hk => hb ?_⟩
    rw [h2] at hk
    rw [← (madeUp_inj _ _ _ _ hk).1]
    exact h1

theorem Books.add {ws bs L L' ex ns : List String} {b : String} {lo hi : Nat} (h : Books ws bs L)
    (ho : Owned ex b lo hi ns) (hc : Clean (ws ++ ex)) (hb : b ∉ bs) (hp : (L ++ ns).Perm L') :
    Books (ws ++ ex) (bs ++ [b]) L' := by
  refine ⟨hp.nodup_iff.1 (List.nodup_append.2 ⟨h.1, ho.1, fun x hx y hy hxy => ?_⟩), fun n hn => ?_⟩
  · subst hxy
    obtain ⟨h1, h2⟩ := h.fresh hc hb hx
    rcases ho.2 x hy with h3 | ⟨k, -, -, h3⟩
    · exact h1 h3
    · exact h2 k h3
  · rcases List.mem_append.1 (hp.mem_iff.2 hn) with hn | hn
    · exact (h.mono (List.subset_append_left _ _) (List.subset_append_left _ _)).2 n hn
    · rcases ho.2 n hn with h3 | ⟨k, -, -, h3⟩
      · exact .inl (List.mem_append_right _ h3)
      · exact .inr ⟨b, by simp, k, h3⟩

theorem convFactors_const (vs : List Value) (d : Data) (h : vs.all Value.isConstant = true) :
    convFactors vs d = (.ok (constants vs), d) := by
  induction vs with
  | nil => rfl
  | cons v vs ih =>
    simp only [List.all_cons, Bool.and_eq_true] at h
    cases v with
    | constant q =>
      have h1 : convValue false (.constant q) none d = (.ok (.literal q), d) := by simp [convValue]
      rw [convFactors, h1]
      simp only [ih h.2, constants]
    | reference n => cases h.1
    | table t ok => cases h.1
    | inline p => cases h.1

theorem convNode_piece (n : Node) (d : Data) (hr : n.fields.regular = true) (hf : n.factors.all Value.isConstant = true)
    (hc : Clean n.fields.written) : Piece d (convNode n d).2 n.fields.written n.name [] := by
  cases n with
  | core isVirtual ty name tags f =>
    rw [convNode]
    cases tags with
    | false => exact .refl
    | true =>
      have h := convFields_piece f name none d name rfl hr hc
      simp only [if_true]
      rcases h2 : convFields f name none d with ⟨r2, d2⟩
      rw [h2] at h
      cases r2 <;> exact h
  | riverSplit name tags f factors slots =>
    rw [convNode]
    cases tags with
    | false => exact .refl
    | true =>
      have h := convFields_piece f name none d name rfl hr hc
      simp only [if_true]
      rcases h2 : convFields f name none d with ⟨r2, d2⟩
      rw [h2] at h
      cases r2 with
      | ok as =>
        simp only
        rw [convFactors_const factors d2 hf]
        exact h
      | err p => exact h
      | panic => exact h
  | custom n => exact .refl
  | unimplemented n => exact .refl

/-- The names in the data. -/
def Data.names (d : Data) : List String := d.parameters.map Component.name ++ d.timeseries.map Series.name

theorem Piece.books {d d' : Data} {ws bs ex : List String} {b : String} (h : Piece d d' ex b [])
    (hb : Books ws bs d.names) (hc : Clean (ws ++ ex)) (hn : b ∉ bs) : Books (ws ++ ex) (bs ++ [b]) d'.names := by
  obtain ⟨p, s, a1, a2, a3, a4, a5⟩ := h
  refine hb.add a5 hc hn ?_
  rw [List.perm_iff_count]
  intro a
  simp only [Data.names, a1, a2, List.map_append, List.count_append, List.count_nil]
  omega

/-- What is asked of nodes. -/
structure GoodNodes (ws bs : List String) (ns : List Node) : Prop where
  regular : ∀ n ∈ ns, n.fields.regular = true ∧ n.factors.all Value.isConstant = true
  clean : Clean (ws ++ ns.flatMap fun n => n.fields.written)
  bases : (bs ++ ns.map Node.name).Nodup

theorem GoodNodes.head {ws bs : List String} {n : Node} {ns : List Node} (h : GoodNodes ws bs (n :: ns)) :
    Clean (ws ++ n.fields.written) ∧ n.name ∉ bs ∧
      GoodNodes (ws ++ n.fields.written) (bs ++ [n.name]) ns := by
  refine ⟨h.clean.sublist (by simp), fun hb => ?_, ?_⟩
  · exact (List.nodup_append.1 h.bases).2.2 _ hb _ (by simp) rfl
  · refine ⟨fun m hm => h.regular m (List.mem_cons_of_mem _ hm), ?_, ?_⟩
    · have := h.clean
      simpa using this
    · have := h.bases
      simpa using this

theorem convNode_books (n : Node) (ns : List Node) (d : Data) (ws bs : List String) (hg : GoodNodes ws bs (n :: ns))
    (hb : Books ws bs d.names) :
    Books (ws ++ n.fields.written) (bs ++ [n.name]) (convNode n { d with count := 0 }).2.names := by
  obtain ⟨h1, h2, -⟩ := hg.head
  obtain ⟨h3, h4⟩ := hg.regular n (List.mem_cons_self ..)
  exact (convNode_piece n { d with count := 0 } h3 h4 (h1.sublist (List.sublist_append_right _ _))).books hb h1 h2

theorem convNodes_books (ns : List Node) (acc acc' : Nodes) (d d' : Data) (ws bs : List String)
    (hg : GoodNodes ws bs ns) (hb : Books ws bs d.names) (hc : convNodes ns acc d = some (acc', d')) :
    Books (ws ++ ns.flatMap fun n => n.fields.written) (bs ++ ns.map Node.name) d'.names := by
  induction ns generalizing acc d ws bs with
  | nil =>
    simp only [convNodes, Option.some.injEq, Prod.mk.injEq] at hc
    rw [← hc.2]
    simpa using hb
  | cons n ns ih =>
    have hn := convNode_books n ns d ws bs hg hb
    obtain ⟨-, -, hg'⟩ := hg.head
    rw [convNodes] at hc
    rcases hr : convNode n { d with count := 0 } with ⟨r, d1⟩
    rw [hr] at hn hc
    have key : ∀ acc, convNodes ns acc d1 = some (acc', d') →
        Books (ws ++ (n :: ns).flatMap fun n => n.fields.written) (bs ++ (n :: ns).map Node.name) d'.names := by
      intro acc h
      have := ih acc d1 _ _ hg' hn h
      simpa using this
    cases r with
    | ok bc =>
      obtain ⟨b, c⟩ := bc
      cases b <;> exact key _ hc
    | err p => exact key _ hc
    | panic => simp at hc

/-- The names of parameters and timeseries. -/
def names1 (acc : Params) (d : Data) : List String := acc.parameters.map Component.name ++ d.names

/-- The names of parameters, and those of data frames. -/
def names2 (acc : Params) (d : Data) : List String :=
  acc.parameters.map Component.name ++ d.parameters.map Component.name ++ acc.refs.map (·.1)

/-- What is asked of parameters. -/
structure GoodParams (ws bs : List String) (ps : List Param) : Prop where
  regular : ∀ p ∈ ps, p.regular = true
  named : ∀ p ∈ ps, p.name.isSome = true
  clean : Clean (ws ++ ps.flatMap Param.written)
  bases : (bs ++ ps.filterMap Param.name).Nodup

theorem GoodParams.head {ws bs : List String} {p : Param} {ps : List Param} (h : GoodParams ws bs (p :: ps)) :
    ∃ b, p.name = some b ∧ Clean (ws ++ p.written) ∧ b ∉ bs ∧ GoodParams (ws ++ p.written) (bs ++ [b]) ps := by
  obtain ⟨b, hb⟩ := Option.isSome_iff_exists.1 (h.named p (List.mem_cons_self ..))
  have hbases := h.bases
  rw [List.filterMap_cons_some hb] at hbases
  refine ⟨b, hb, h.clean.sublist (by simp), fun hb' => ?_, ?_⟩
  · exact (List.nodup_append.1 hbases).2.2 _ hb' _ (by simp) rfl
  · refine ⟨fun m hm => h.regular m (List.mem_cons_of_mem _ hm), fun m hm => h.named m (List.mem_cons_of_mem _ hm), ?_, ?_⟩
    · have := h.clean
      simpa using this
    · simpa using hbases

/-- A name in the metadata is written. -/
theorem Param.name_written (p : Param) (x : String) (hp : p.isFrame = true) (hx : p.name = some x) : x ∈ p.written := by
  cases p with
  | dataFrame md url table column scenario =>
    simp only [Param.name] at hx
    simp [Param.written, hx]
  | _ => cases hp

theorem convParam_frame_data (p : Param) (parent : Option String) (d d' : Data) (n : String) (r : Ref)
    (h : convParam p parent d = (.ok (.series n r), d')) : d'.parameters = d.parameters := by
  have hf := ((convParam_ok p parent d d' _ h).2 n r rfl).1
  cases p with
  | dataFrame md url table column scenario =>
    obtain ⟨name, d1, h1, h2⟩ := convParam_frame _ _ _ _ _ _ _ _ _ h
    have hm : d1.parameters = d.parameters := by
      have : (convMeta md parent d).2.parameters = d.parameters := by
        cases md with
        | missing => rfl
        | given name tags => cases name <;> rfl
      rwa [h1] at this
    obtain ⟨-, ⟨u, -, -, h3⟩ | ⟨-, t, -, -, h3⟩⟩ := convDataFrame_ok _ _ _ _ _ _ _ _ h2
    · rw [h3]
      split_ifs <;> exact hm
    · rw [h3]
      exact hm
  | _ => cases hf

/-- What the loop over parameters adds for one result. -/
def Params.add (acc : Params) : Res Definition → Params
  | .ok (.parameter c) => { acc with parameters := acc.parameters ++ [c] }
  | .ok (.series o r) => { acc with refs := acc.refs ++ [(o, r)] }
  | .err p => { acc with errors := acc.errors ++ [p] }
  | .panic => acc

theorem convParams_cons (p : Param) (ps : List Param) (acc acc' : Params) (d d' : Data)
    (hc : convParams (p :: ps) acc d = some (acc', d')) :
    convParams ps (acc.add (convParam p none d).1) (convParam p none d).2 = some (acc', d') := by
  rw [convParams] at hc
  rcases hr : convParam p none d with ⟨r, d1⟩
  rw [hr] at hc
  cases r with
  | ok o => cases o <;> exact hc
  | err p => exact hc
  | panic => simp at hc

theorem convParam_books (p : Param) (ps : List Param) (acc : Params) (d : Data) (ws bs : List String) (b : String)
    (hb : p.name = some b) (hg : GoodParams ws bs (p :: ps)) (h1 : Books ws bs (names1 acc d))
    (h2 : Books ws bs (names2 acc d)) :
    Books (ws ++ p.written) (bs ++ [b]) (names1 (acc.add (convParam p none d).1) (convParam p none d).2) ∧
      Books (ws ++ p.written) (bs ++ [b]) (names2 (acc.add (convParam p none d).1) (convParam p none d).2) := by
  obtain ⟨b', hb', hcl, hnb, -⟩ := hg.head
  rw [hb] at hb'
  cases hb'
  have hp := convParam_piece p none d b (by rw [hb]; rfl) (hg.regular p (List.mem_cons_self ..))
    (hcl.sublist (List.sublist_append_right _ _))
  rcases hr : convParam p none d with ⟨r, d1⟩
  rw [hr] at hp
  obtain ⟨np, ns, a1, a2, a3, a4, a5⟩ := hp
  simp only at a1 a2 a3 a4 a5
  cases r with
  | ok o =>
    cases o with
    | parameter c =>
      simp only [Definition.names] at a5
      refine ⟨h1.add a5 hcl hnb ?_, h2.add (a5.sublist (ns' := np.map Component.name ++ [c.name]) (by simp)) hcl hnb ?_⟩
      · rw [List.perm_iff_count]
        intro a
        simp only [names1, Data.names, Params.add, a1, a2, List.map_append, List.count_append, List.map_cons, List.map_nil]
        omega
      · rw [List.perm_iff_count]
        intro a
        simp only [names2, Params.add, a1, List.map_append, List.count_append, List.map_cons, List.map_nil]
        omega
    | series n r =>
      obtain ⟨hf, hx⟩ := (convParam_ok p none d d1 _ hr).2 n r rfl
      obtain ⟨-, rfl, -⟩ := hx b hb
      have hd := convParam_frame_data p none d d1 n r hr
      simp only [Definition.names] at a5
      have hno : Owned p.written n 0 0 [n] :=
        ⟨by simp, fun m hm => .inl (by simp only [List.mem_singleton] at hm; rw [hm]; exact p.name_written n hf hb)⟩
      refine ⟨h1.add a5 hcl hnb ?_, h2.add hno hcl hnb ?_⟩
      · rw [List.perm_iff_count]
        intro a
        simp only [names1, Data.names, Params.add, a1, a2, List.map_append, List.count_append, List.count_nil]
        omega
      · rw [List.perm_iff_count]
        intro a
        simp only [names2, Params.add, hd, List.map_append, List.count_append, List.map_cons, List.map_nil]
        omega
  | err q =>
    simp only [Definition.names] at a5
    refine ⟨h1.add a5 hcl hnb ?_, h2.add (a5.sublist (ns' := np.map Component.name) (by simp)) hcl hnb ?_⟩
    · rw [List.perm_iff_count]
      intro a
      simp only [names1, Data.names, Params.add, a1, a2, List.map_append, List.count_append, List.count_nil]
      omega
    · rw [List.perm_iff_count]
      intro a
      simp only [names2, Params.add, a1, List.map_append, List.count_append]
      omega
  | panic =>
    simp only [Definition.names] at a5
    refine ⟨h1.add a5 hcl hnb ?_, h2.add (a5.sublist (ns' := np.map Component.name) (by simp)) hcl hnb ?_⟩
    · rw [List.perm_iff_count]
      intro a
      simp only [names1, Data.names, Params.add, a1, a2, List.map_append, List.count_append, List.count_nil]
      omega
    · rw [List.perm_iff_count]
      intro a
      simp only [names2, Params.add, a1, List.map_append, List.count_append]
      omega

theorem convParams_books (ps : List Param) (acc acc' : Params) (d d' : Data) (ws bs : List String)
    (hg : GoodParams ws bs ps) (h1 : Books ws bs (names1 acc d)) (h2 : Books ws bs (names2 acc d))
    (hc : convParams ps acc d = some (acc', d')) :
    Books (ws ++ ps.flatMap Param.written) (bs ++ ps.filterMap Param.name) (names1 acc' d') ∧
      Books (ws ++ ps.flatMap Param.written) (bs ++ ps.filterMap Param.name) (names2 acc' d') := by
  induction ps generalizing acc d ws bs with
  | nil =>
    simp only [convParams, Option.some.injEq, Prod.mk.injEq] at hc
    rw [← hc.1, ← hc.2]
    simpa using ⟨h1, h2⟩
  | cons p ps ih =>
    obtain ⟨b, hb, -, -, hg'⟩ := hg.head
    obtain ⟨i1, i2⟩ := convParam_books p ps acc d ws bs b hb hg h1 h2
    have := ih _ _ _ _ hg' i1 i2 (convParams_cons p ps acc acc' d d' hc)
    rw [List.filterMap_cons_some hb]
    simpa using this

end Verif.V1
