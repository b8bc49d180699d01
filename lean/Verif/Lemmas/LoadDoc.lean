import Verif.Lemmas.LoadMade

/-! # What a document has become -/

namespace Verif.Load

open Verif.Params Verif.Kinds

variable {W : Type} {A : Args W} {D : Doc}

/-- The names of the parameters of a document. -/
def Names (A : Args W) (D : Doc) (c : Nat) : Prop := ∃ d ∈ D.declared, Own A d.2.1 d.1 c

theorem forall_flatten {α β : Type} {R : α → β → Prop} {γ : Type} {g : γ → List α} : ∀ {l : List γ} {bs : List (List β)},
    List.Forall₂ (fun c b => List.Forall₂ R (g c) b) l bs → List.Forall₂ R (l.flatMap g) bs.flatten
  | [], _, h => by cases h; exact .nil
  | c :: l, _, h => by
    cases h with
    | cons h1 h2 => exact List.rel_append h1 (forall_flatten h2)

theorem forall_mem {α β : Type} {R : α → β → Prop} {l : List α} {bs : List β} (h : List.Forall₂ R l bs) :
    ∀ a ∈ l, ∃ b, R a b := by
  induction h with
  | nil => intro a ha; cases ha
  | cons h1 _ ih =>
    intro a ha
    rcases List.mem_cons.1 ha with rfl | ha
    · exact ⟨_, h1⟩
    · exact ih a ha

theorem mem_declared_node {n : SNode} (hn : n ∈ D.nodes) {p : String × SKind} (hp : p ∈ n.params) :
    (some n.name, p.1, p.2) ∈ D.declared :=
  List.mem_append_left _ (List.mem_flatMap.2 ⟨n, List.mem_append_left _ hn, List.mem_map.2 ⟨p, hp, rfl⟩⟩)

theorem mem_declared_global {p : String × SKind} (hp : p ∈ D.params) : (none, p.1, p.2) ∈ D.declared :=
  List.mem_append_right _ (List.mem_map.2 ⟨p, hp, rfl⟩)

theorem mem_declared (ha : D.Apart A) {d : Option String × String × SKind} (hd : d ∈ D.declared) :
    (∃ n ∈ D.nodes, ∃ p ∈ n.params, d = (some n.name, p.1, p.2)) ∨ ∃ p ∈ D.params, d = (none, p.1, p.2) := by
  rcases List.mem_append.1 hd with h | h
  · obtain ⟨n, hn, h1⟩ := List.mem_flatMap.1 h
    obtain ⟨p, hp, rfl⟩ := List.mem_map.1 h1
    rcases List.mem_append.1 hn with hn | hn
    · exact .inl ⟨n, hn, p, hp, rfl⟩
    · rw [ha.virtuals n hn] at hp; cases hp
  · obtain ⟨p, hp, rfl⟩ := List.mem_map.1 h
    exact .inr ⟨p, hp, rfl⟩

theorem Doc.load_safe (ha : D.Apart A) : Safe A (Names A D) (D.load A) fun ps r =>
    List.Forall₂ (fun u s => Became A ps u.1 u.2 s) D.uses r.1 ∧ (∀ d ∈ D.declared, Made A ps d.1 d.2.1 d.2.2) ∧
      List.Forall₂ (Became A ps none) D.outputs r.2.1 ∧ List.Forall₂ (Became A ps none) D.links r.2.2 := by
  have hu := ha.unique
  refine .ite (fun _ => ?_) fun _ => .fail
  refine .bind (.each fun n _ => each_load_safe hu (some n.name) n.uses) fun us => ?_
  refine .bind (.each fun n _ => each_load_safe hu (some n.name) n.uses) fun vs => ?_
  refine .bind (.each (R := fun n ps _ => ∀ p ∈ n.params, Made A ps (some n.name) p.1 p.2) fun n hn => ?_) fun _ => ?_
  · refine .mono (.each (R := fun p ps _ => Made A ps (some n.name) p.1 p.2) fun p hp => ?_) fun ps _ h p hp => ?_
    · refine .names (SKind.add_safe hu (.inr fun m ls pr r => ha.multi n hn p hp m ls pr r)) fun c hc => ?_
      exact ⟨_, mem_declared_node hn hp, hc⟩
    · exact (forall_mem h p hp).elim fun _ h => h
  refine .bind (.each (R := fun p ps _ => Made A ps none p.1 p.2) fun p hp => ?_) fun _ => ?_
  · refine .names (SKind.add_safe hu (.inl rfl)) fun c hc => ?_
    exact ⟨_, mem_declared_global hp, hc⟩
  refine .bind (.each (R := fun m ps s => Became A ps none m s) fun m _ => ?_) fun os => .bind (each_load_safe hu none D.links) fun ls => .pure ?_
  · refine .bind (m.load_safe hu none) fun s => ?_
    cases m with
    | literal v => exact .fail
    | param r => exact .ite (fun _ => .pure fun _ h => h) fun _ => .fail
    | localParam r => exact .ite (fun _ => .pure fun _ h => h) fun _ => .fail
    | table r => exact .pure fun _ h => h
    | component r => exact .pure fun _ h => h
    | series r c => exact .pure fun _ h => h
  · intro ps h0 h1 h2 h3 h4 h5
    refine ⟨?_, fun d hd => ?_, h1, h0⟩
    · show List.Forall₂ _ (List.flatMap _ (D.nodes ++ D.virtuals)) (us.flatten ++ vs.flatten)
      rw [List.flatMap_append]
      refine List.rel_append (forall_flatten ?_) (forall_flatten ?_)
      · refine h5.imp fun n b h => ?_
        exact List.forall₂_map_left_iff.2 h
      · refine h4.imp fun n b h => ?_
        exact List.forall₂_map_left_iff.2 h
    · rcases mem_declared ha hd with ⟨n, hn, p, hp, rfl⟩ | ⟨p, hp, rfl⟩
      · exact (forall_mem h3 n hn).elim fun _ h => h p hp
      · exact (forall_mem h2 p hp).elim fun _ h => h

theorem Gen.unique (ha : D.Apart A) {n : PName} {k k' : Kind W} (h : Gen A n k) (h' : Gen A n k') : k = k' := by
  cases h with
  | column s table c hs hc =>
    generalize hn : named c.1 (some s) = n at h'
    cases h' with
    | column s' table' c' hs' hc' =>
      simp only [named, PName.mk.injEq, Option.some.injEq, true_and] at hn
      obtain ⟨h1, rfl⟩ := hn
      rw [hs] at hs'
      obtain rfl := Option.some.inj hs'
      rw [find_unique (ha.unique s table hs) hc hc' h1]
    | group s' table' g i hs' hg =>
      simp only [named, PName.mk.injEq, Option.some.injEq, true_and] at hn
      obtain ⟨h1, rfl⟩ := hn
      exact absurd h1 (ha.columns s table g hs (by rw [hg]; simp) c hc)
    | deficit r node f l hr =>
      simp only [named, PName.mk.injEq, Option.some.injEq, true_and] at hn
      obtain ⟨h1, rfl⟩ := hn
      rw [ha.deficits r s f l hr] at hs; cases hs
  | group s table g i hs hg =>
    generalize hn : named g (some s) = n at h'
    cases h' with
    | column s' table' c' hs' hc' =>
      simp only [named, PName.mk.injEq, Option.some.injEq, true_and] at hn
      obtain ⟨h1, rfl⟩ := hn
      exact absurd h1.symm (ha.columns s table' g hs' (by rw [hg]; simp) c' hc')
    | group s' table' g' i' hs' hg' =>
      simp only [named, PName.mk.injEq, Option.some.injEq, true_and] at hn
      obtain ⟨rfl, rfl⟩ := hn
      rw [hs] at hs'
      obtain rfl := Option.some.inj hs'
      rw [hg] at hg'
      obtain rfl := Option.some.inj hg'
      rfl
    | deficit r node f l hr =>
      simp only [named, PName.mk.injEq, Option.some.injEq, true_and] at hn
      obtain ⟨h1, rfl⟩ := hn
      rw [ha.deficits r s f l hr] at hs; cases hs
  | deficit r node f l hr =>
    generalize hn : named "deficit" (some node) = n at h'
    cases h' with
    | column s' table' c' hs' hc' =>
      simp only [named, PName.mk.injEq, Option.some.injEq, true_and] at hn
      obtain ⟨h1, rfl⟩ := hn
      rw [ha.deficits r node f l hr] at hs'; cases hs'
    | group s' table' g' i' hs' hg' =>
      simp only [named, PName.mk.injEq, Option.some.injEq, true_and] at hn
      obtain ⟨h1, rfl⟩ := hn
      rw [ha.deficits r node f l hr] at hs'; cases hs'
    | deficit r' node' f' l' hr' =>
      simp only [named, PName.mk.injEq, Option.some.injEq, true_and] at hn
      obtain rfl := hn
      obtain ⟨rfl, rfl⟩ := ha.same r r' node f l f' l' hr hr'
      rfl

/-- What a loaded document is. -/
structure Loaded (A : Args W) (D : Doc) (ps : List (Param W)) (ss os ls : List (Source W)) : Prop where
  uses : List.Forall₂ (fun u s => Became A ps u.1 u.2 s) D.uses ss
  declared : ∀ d ∈ D.declared, Made A ps d.1 d.2.1 d.2.2
  outputs : List.Forall₂ (Became A ps none) D.outputs os
  links : List.Forall₂ (Became A ps none) D.links ls
  generated : ∀ n k, Gen A n k → There ps (A.code n) → (⟨A.code n, k⟩ : Param W) ∈ ps

theorem loaded_of (ha : D.Apart A) (hi : A.Injective) {ps : List (Param W)} {ss os ls : List (Source W)}
    (h : D.loaded A = .ok ((ss, os, ls), ps)) : Loaded A D ps ss os ls := by
  obtain ⟨⟨-, h2⟩, h3⟩ := Doc.load_safe ha [] (ss, os, ls) ps h
  obtain ⟨h4, h5, h6, h8⟩ := h3 ps fun _ h => h
  refine ⟨h4, h5, h6, h8, ?_⟩
  rintro n k hg ⟨p, hp, hn⟩
  rcases h2 p hp with h | ⟨n', hg', h7⟩ | ⟨d, hd, h7⟩
  · cases h
  · have := hi n n' (hn.symm.trans h7)
    subst this
    rw [← hn, hg.unique ha hg']
    exact hp
  · exfalso
    rcases h7 with h7 | h7
    · have he := hi _ _ (hn.symm.trans h7)
      rcases mem_declared ha hd with ⟨nd, hnd, q, hq, rfl⟩ | ⟨q, hq, rfl⟩
      · cases hg with
        | column s table c hs hc =>
          simp only [named, PName.mk.injEq, Option.some.injEq, true_and] at he
          rw [he.2, ha.nodes nd hnd] at hs; cases hs
        | group s table g i hs hg =>
          simp only [named, PName.mk.injEq, Option.some.injEq, true_and] at he
          rw [he.2, ha.nodes nd hnd] at hs; cases hs
        | deficit r node f l hr =>
          simp only [named, PName.mk.injEq, Option.some.injEq, true_and] at he
          exact ha.locals nd hnd q hq he.1.symm
      · cases hg <;> simp [named] at he
    · have he := hi _ _ (hn.symm.trans h7)
      cases hg <;> simp [named, hidden] at he

end Verif.Load
