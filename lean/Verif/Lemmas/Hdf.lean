import Verif.Spec.Hdf
import Mathlib.Data.List.Nodup
import Mathlib.Data.List.Forall2

/-!
# Files as sets of objects
-/

namespace Verif.Hdf

open Verif.Time

/-- Every path is there once, and the root is not listed. -/
structure Sound (f : File) : Prop where
  keys : (f.map Prod.fst).Nodup
  root : [] ∉ f.map Prod.fst

theorem Sound.unique {f : File} (h : Sound f) {p : Path} {o o' : Obj} (h1 : (p, o) ∈ f) (h2 : (p, o') ∈ f) : o = o' := by
  have := List.inj_on_of_nodup_map h.keys h1 h2 rfl
  exact (Prod.mk.inj this).2

theorem find_some {f : File} (h : Sound f) {p : Path} (hp : p ≠ []) {o : Obj} : find f p = some o ↔ (p, o) ∈ f := by
  unfold find
  rw [if_neg hp]
  constructor
  · intro hf
    obtain ⟨x, hx, rfl⟩ := Option.map_eq_some_iff.mp hf
    have h1 := List.find?_some hx
    have h2 := List.mem_of_find?_eq_some hx
    simp only [decide_eq_true_eq] at h1
    rw [← h1]; exact h2
  · intro hm
    rcases hx : f.find? (fun o => o.1 = p) with _ | x
    · rw [List.find?_eq_none] at hx
      exact absurd (by simp) (hx _ hm)
    · have h1 := List.find?_some hx
      have h2 := List.mem_of_find?_eq_some hx
      simp only [decide_eq_true_eq] at h1
      have := h.unique (p := p) (by rw [← h1]; exact h2) hm
      rw [hx, Option.map_some, this]

theorem find_none {f : File} {p : Path} (hp : p ≠ []) : find f p = none ↔ ∀ o, (p, o) ∉ f := by
  unfold find
  rw [if_neg hp, Option.map_eq_none_iff, List.find?_eq_none]
  constructor
  · intro h o hm; exact h _ hm (by simp)
  · rintro h ⟨q, o⟩ hm hq
    simp only [decide_eq_true_eq] at hq
    subst hq
    exact h o hm

theorem Sound.add {f : File} (h : Sound f) {p : Path} (hp : p ≠ []) (hn : find f p = none) (o : Obj) : Sound (f ++ [(p, o)]) := by
  refine ⟨?_, ?_⟩
  · rw [List.map_append, List.nodup_append]
    refine ⟨h.keys, by simp, ?_⟩
    intro a ha b hb
    simp only [List.map_cons, List.map_nil, List.mem_singleton] at hb
    rintro rfl
    subst hb
    obtain ⟨⟨q, o'⟩, hm, rfl⟩ := List.mem_map.mp ha
    exact (find_none hp).mp hn o' hm
  · simp only [List.map_append, List.mem_append, List.map_cons, List.map_nil, List.mem_singleton, not_or]
    exact ⟨h.root, fun e => hp e.symm⟩

/-- The way along the links is free. -/
def Free (f : File) (done : Path) (ls : Path) : Prop :=
  ls ≠ [] ∧ (∀ o, (done ++ ls, o) ∉ f) ∧ ∀ q, q ≠ [] → q <+: ls → q ≠ ls → ∀ o, (done ++ q, o) ∈ f → o = .group

/-- What is in the file after an object was made. -/
def Grown (f : File) (done ls : Path) (o : Obj) (f' : File) : Prop :=
  ∀ p o', (p, o') ∈ f' ↔ (p, o') ∈ f ∨ (p = done ++ ls ∧ o' = o) ∨
    (o' = .group ∧ ∃ q, q ≠ [] ∧ q <+: ls ∧ q ≠ ls ∧ p = done ++ q)

theorem prefix_cons_cases {l : List Char} {q ls : Path} (h : q <+: l :: ls) (hq : q ≠ []) : ∃ q', q = l :: q' ∧ q' <+: ls := by
  cases q with
  | nil => exact absurd rfl hq
  | cons a q =>
    rw [List.cons_prefix_cons] at h
    exact ⟨q, by rw [h.1], h.2⟩

theorem insert_spec {o : Obj} (ls : Path) {f : File} (hf : Sound f) (done : Path) :
    (∀ f', insert f done o ls = .ok f' → Free f done ls ∧ Sound f' ∧ Grown f done ls o f') ∧
    (Free f done ls → ∃ f', insert f done o ls = .ok f') := by
  induction ls generalizing f done with
  | nil => exact ⟨fun f' h => by simp [insert] at h, fun h => absurd rfl h.1⟩
  | cons l ls ih =>
    have hd : done ++ [l] ≠ [] := by simp
    cases ls with
    | nil =>
      have hpre : ∀ q : Path, q ≠ [] → q <+: [l] → q ≠ [l] → False := by
        intro q h1 h2 h3
        obtain ⟨q', rfl, h4⟩ := prefix_cons_cases h2 h1
        rw [List.prefix_nil] at h4
        exact h3 (by rw [h4])
      constructor
      · intro f' h
        rcases hx : find f (done ++ [l]) with _ | x
        · simp only [insert, hx, Except.ok.injEq] at h
          subst h
          refine ⟨⟨by simp, (find_none hd).mp hx, fun q h1 h2 h3 => (hpre q h1 h2 h3).elim⟩, hf.add hd hx o, ?_⟩
          intro p o'
          simp only [List.mem_append, List.mem_singleton, Prod.mk.injEq]
          constructor
          · rintro (h | h)
            · exact .inl h
            · exact .inr (.inl h)
          · rintro (h | h | ⟨-, q, h1, h2, h3, -⟩)
            · exact .inl h
            · exact .inr h
            · exact (hpre q h1 h2 h3).elim
        · simp [insert, hx] at h
      · intro h
        have hx : find f (done ++ [l]) = none := (find_none hd).mpr h.2.1
        exact ⟨f ++ [(done ++ [l], o)], by simp only [insert, hx]⟩
    | cons l' ls =>
      have happ : done ++ l :: l' :: ls = (done ++ [l]) ++ (l' :: ls) := by simp
      -- the first link is a group
      have key : ∀ g : File, Sound g → (∀ p o', (p, o') ∈ g ↔ (p, o') ∈ f ∨ (p = done ++ [l] ∧ o' = .group)) →
          (∀ o', (done ++ [l], o') ∈ f → o' = .group) →
          (∀ f', insert g (done ++ [l]) o (l' :: ls) = .ok f' → Free f done (l :: l' :: ls) ∧ Sound f' ∧ Grown f done (l :: l' :: ls) o f') ∧
          (Free f done (l :: l' :: ls) → ∃ f', insert g (done ++ [l]) o (l' :: ls) = .ok f') := by
        intro g hg hmem hgrp
        obtain ⟨i1, i2⟩ := ih hg (done ++ [l])
        constructor
        · intro f' h
          obtain ⟨h1, h2, h3⟩ := i1 f' h
          refine ⟨⟨by simp, ?_, ?_⟩, h2, ?_⟩
          · intro o' hm
            rw [happ] at hm
            exact h1.2.1 o' ((hmem _ _).mpr (.inl hm))
          · intro q hq hp hne o' hm
            obtain ⟨q', rfl, hq'⟩ := prefix_cons_cases hp hq
            by_cases he : q' = []
            · subst he; exact hgrp o' hm
            · refine h1.2.2 q' he hq' (fun e => hne (by rw [e])) o' ((hmem _ _).mpr (.inl ?_))
              simpa using hm
          · intro p o'
            rw [h3, hmem]
            constructor
            · rintro ((h | h) | h | ⟨h, q, q1, q2, q3, q4⟩)
              · exact .inl h
              · exact .inr (.inr ⟨h.2, [l], by simp, by simp, by simp, h.1⟩)
              · exact .inr (.inl (by rw [happ]; exact h))
              · refine .inr (.inr ⟨h, l :: q, by simp, by simpa [List.cons_prefix_cons] using q2, by simpa using q3, ?_⟩)
                rw [q4]; simp
            · rintro (h | h | ⟨h, q, q1, q2, q3, q4⟩)
              · exact .inl (.inl h)
              · exact .inr (.inl (by rw [happ] at h; exact h))
              · obtain ⟨q', rfl, hq'⟩ := prefix_cons_cases q2 q1
                by_cases he : q' = []
                · subst he; exact .inl (.inr ⟨q4, h⟩)
                · refine .inr (.inr ⟨h, q', he, hq', fun e => q3 (by rw [e]), ?_⟩)
                  rw [q4]; simp
        · intro h
          refine i2 ⟨by simp, ?_, ?_⟩
          · intro o' hm
            rw [← happ] at hm
            rcases (hmem _ _).mp hm with hm | hm
            · exact h.2.1 o' hm
            · have := congrArg List.length hm.1
              simp at this
          · intro q hq hp hne o' hm
            rcases (hmem _ _).mp hm with hm | hm
            · exact h.2.2 (l :: q) (by simp) (by simpa [List.cons_prefix_cons] using hp) (by simpa using hne) o' (by simpa using hm)
            · exact hm.2
      rcases hx : find f (done ++ [l]) with _ | x
      · have hn := (find_none hd).mp hx
        have := key (f ++ [(done ++ [l], .group)]) (hf.add hd hx _) (by
          intro p o'; simp only [List.mem_append, List.mem_singleton, Prod.mk.injEq]) (fun o' hm => absurd hm (hn o'))
        simpa only [insert, hx] using this
      · have hm := (find_some hf hd).mp hx
        cases x with
        | group =>
          have := key f hf (by
            intro p o'
            constructor
            · exact .inl
            · rintro (h | ⟨rfl, rfl⟩)
              · exact h
              · exact hm) (fun o' h => hf.unique h hm)
          simpa only [insert, hx] using this
        | _ =>
          refine ⟨fun f' h => by simp [insert, hx] at h, fun h => ?_⟩
          have := h.2.2 [l] (by simp) (by simp) (by simp) _ hm
          simp at this

/-- The file has the data sets `D`, the groups on the way to them, and nothing else. -/
structure Look (D : List (Path × Obj)) (f : File) : Prop where
  sound : Sound f
  solid : ∀ d ∈ D, d.1 ≠ [] ∧ d.2 ≠ .group
  apart : D.Pairwise fun a b => Clear a.1 b.1
  mem : ∀ p o, (p, o) ∈ f ↔ (p, o) ∈ D ∨ (o = .group ∧ p ≠ [] ∧ ∃ d ∈ D, p <+: d.1 ∧ p ≠ d.1)

/-- A new path is clear of the data sets. -/
def Fresh (D : List (Path × Obj)) (p : Path) : Prop := ∀ d ∈ D, Clear d.1 p

/-- Where nothing but groups is on the way. -/
theorem Look.fresh {D : List (Path × Obj)} {f : File} (h : Look D f) {p : Path} (hp : p ≠ []) : Free f [] p ↔ Fresh D p := by
  constructor
  · rintro ⟨-, h2, h3⟩ d hd
    constructor
    · intro hpre
      by_cases he : d.1 = p
      · exact h2 d.2 ((h.mem _ _).mpr (.inl (by rw [List.nil_append, ← he]; exact hd)))
      · exact (h.solid d hd).2 (h3 d.1 (h.solid d hd).1 hpre he d.2 ((h.mem _ _).mpr (.inl hd)))
    · intro hpre
      by_cases he : p = d.1
      · exact h2 d.2 ((h.mem _ _).mpr (.inl (by rw [List.nil_append, he]; exact hd)))
      · exact h2 .group ((h.mem _ _).mpr (.inr ⟨rfl, hp, d, hd, hpre, he⟩))
  · intro hf
    refine ⟨hp, ?_, ?_⟩
    · intro o hm
      rcases (h.mem _ _).mp hm with hm | ⟨-, -, d, hd, h1, -⟩
      · exact (hf _ hm).1 (List.prefix_refl _)
      · exact (hf d hd).2 h1
    · intro q hq hpre hne o hm
      rcases (h.mem _ _).mp hm with hm | ⟨h1, -⟩
      · exact ((hf _ hm).1 hpre).elim
      · exact h1

/-- A file with one more data set. -/
theorem Look.add {D : List (Path × Obj)} {f f' : File} (h : Look D f) {p : Path} {o : Obj} (hp : p ≠ []) (ho : o ≠ .group)
    (hf : Fresh D p) (hs : Sound f') (hg : Grown f [] p o f') : Look (D ++ [(p, o)]) f' := by
  refine ⟨hs, ?_, ?_, ?_⟩
  · intro d hd
    rcases List.mem_append.mp hd with hd | hd
    · exact h.solid d hd
    · rw [List.mem_singleton] at hd; subst hd; exact ⟨hp, ho⟩
  · rw [List.pairwise_append]
    refine ⟨h.apart, by simp, ?_⟩
    intro a ha b hb
    rw [List.mem_singleton] at hb; subst hb; exact hf a ha
  · intro q o'
    rw [hg q o', h.mem]
    simp only [List.mem_append, List.mem_singleton, Prod.mk.injEq, List.nil_append]
    constructor
    · rintro ((h1 | ⟨h1, h2, d, h3, h4, h5⟩) | h1 | ⟨h1, r, r1, r2, r3, rfl⟩)
      · exact .inl (.inl h1)
      · exact .inr ⟨h1, h2, d, .inl h3, h4, h5⟩
      · exact .inl (.inr h1)
      · exact .inr ⟨h1, r1, (p, o), .inr rfl, r2, r3⟩
    · rintro ((h1 | h1) | ⟨h1, h2, d, h3 | rfl, h4, h5⟩)
      · exact .inl (.inl h1)
      · exact .inr (.inl h1)
      · exact .inl (.inr ⟨h1, h2, d, h3, h4, h5⟩)
      · exact .inr (.inr ⟨h1, q, h2, h4, h5, rfl⟩)

/-- Paths of which one goes through a group. -/
theorem prefix_append_cases {q g a : Path} (h : q <+: g ++ a) : q <+: g ∨ ∃ a', a' ≠ [] ∧ a' <+: a ∧ q = g ++ a' := by
  rcases List.prefix_append_right_inj g |>.mpr (List.nil_prefix (l := a)) with _
  rcases Nat.le_total q.length g.length with hl | hl
  · exact .inl (List.prefix_of_prefix_length_le h (List.prefix_append g a) hl)
  · have hg : g <+: q := List.prefix_of_prefix_length_le (List.prefix_append g a) h hl
    obtain ⟨a', rfl⟩ := hg
    by_cases he : a' = []
    · subst he; left; simp
    · exact .inr ⟨a', he, (List.prefix_append_right_inj g).mp h, rfl⟩

/-- A file in which there is a group, and what it was before. -/
structure Through (f : File) (g : Path) (f1 : File) : Prop where
  mem : ∀ p o, (p, o) ∈ f1 ↔ (p, o) ∈ f ∨ (o = .group ∧ p ≠ [] ∧ p <+: g)
  groups : ∀ q, q ≠ [] → q <+: g → ∀ o, (q, o) ∈ f → o = .group

theorem Through.free {f f1 : File} {g : Path} (h : Through f g f1) (a : Path) : Free f1 g a ↔ a ≠ [] ∧ Free f [] (g ++ a) := by
  constructor
  · rintro ⟨h1, h2, h3⟩
    refine ⟨h1, by simp [h1], fun o hm => h2 o ((h.mem _ _).mpr (.inl hm)), ?_⟩
    intro q hq hp hne o hm
    rw [List.nil_append] at hm
    rcases prefix_append_cases hp with hg | ⟨a', e1, e2, rfl⟩
    · exact h.groups q hq hg o hm
    · exact h3 a' e1 e2 (fun e => hne (by rw [e])) o ((h.mem _ _).mpr (.inl hm))
  · rintro ⟨h1, h2, h3, h4⟩
    refine ⟨h1, ?_, ?_⟩
    · intro o hm
      rcases (h.mem _ _).mp hm with hm | ⟨-, -, hm⟩
      · exact h3 o hm
      · have := hm.length_le
        rw [List.length_append] at this
        exact h1 (List.eq_nil_of_length_eq_zero (by omega))
    · intro q hq hp hne o hm
      rcases (h.mem _ _).mp hm with hm | ⟨hm, -⟩
      · exact h4 (g ++ q) (by simp [hq]) ((List.prefix_append_right_inj g).mpr hp) (by simpa using hne) o hm
      · exact hm

theorem Through.grown {f f1 f' : File} {g a : Path} {o : Obj} (h : Through f g f1) (ha : a ≠ []) (hg : Grown f1 g a o f') : Grown f [] (g ++ a) o f' := by
  intro p o'
  rw [hg p o', h.mem, List.nil_append]
  constructor
  · rintro ((h1 | ⟨h1, h2, h3⟩) | h1 | ⟨h1, q, q1, q2, q3, rfl⟩)
    · exact .inl h1
    · refine .inr (.inr ⟨h1, p, h2, h3.trans (List.prefix_append _ _), ?_, rfl⟩)
      intro e
      have := h3.length_le
      rw [e, List.length_append] at this
      exact ha (List.eq_nil_of_length_eq_zero (by omega))
    · exact .inr (.inl h1)
    · exact .inr (.inr ⟨h1, g ++ q, by simp [q1], (List.prefix_append_right_inj g).mpr q2, by simpa using q3, rfl⟩)
  · rintro (h1 | h1 | ⟨h1, q, q1, q2, q3, rfl⟩)
    · exact .inl (.inl h1)
    · exact .inr (.inl h1)
    · rcases prefix_append_cases q2 with hq | ⟨a', e1, e2, rfl⟩
      · exact .inl (.inr ⟨h1, q1, hq⟩)
      · exact .inr (.inr ⟨h1, a', e1, e2, fun e => q3 (by rw [e]), rfl⟩)

theorem Through.refl {D : List (Path × Obj)} {f : File} (h : Look D f) {g : Path} (hg : find f g = some .group) : Through f g f := by
  by_cases he : g = []
  · subst he
    refine ⟨fun p o => ⟨.inl, ?_⟩, ?_⟩
    · rintro (h1 | ⟨-, h2, h3⟩)
      · exact h1
      · exact (h2 (List.prefix_nil.mp h3)).elim
    · intro q hq hp; exact (hq (List.prefix_nil.mp hp)).elim
  · have hm := (find_some h.sound he).mp hg
    obtain ⟨d, hd, h1, h2⟩ : ∃ d ∈ D, g <+: d.1 ∧ g ≠ d.1 := by
      rcases (h.mem _ _).mp hm with hm | ⟨-, -, hm⟩
      · exact ((h.solid _ hm).2 rfl).elim
      · exact hm
    have hproper : ∀ q, q <+: g → q <+: d.1 ∧ q ≠ d.1 := by
      intro q hq
      refine ⟨hq.trans h1, ?_⟩
      rintro rfl
      exact h2 (h1.eq_of_length_le hq.length_le)
    refine ⟨fun p o => ⟨.inl, ?_⟩, ?_⟩
    · rintro (h3 | ⟨rfl, h3, h4⟩)
      · exact h3
      · exact (h.mem _ _).mpr (.inr ⟨rfl, h3, d, hd, hproper p h4⟩)
    · intro q hq hp o ho
      have h4 : (q, Obj.group) ∈ f := (h.mem _ _).mpr (.inr ⟨rfl, hq, d, hd, hproper q hp⟩)
      exact h.sound.unique ho h4

theorem Through.made {f f1 : File} {g : Path} (hg : g ≠ []) (hf : Free f [] g) (h1 : Grown f [] g .group f1) : Through f g f1 := by
  refine ⟨?_, ?_⟩
  · intro p o
    rw [h1 p o]
    simp only [List.nil_append]
    constructor
    · rintro (h | ⟨rfl, rfl⟩ | ⟨h, q, q1, q2, q3, rfl⟩)
      · exact .inl h
      · exact .inr ⟨rfl, hg, List.prefix_refl _⟩
      · exact .inr ⟨h, q1, q2⟩
    · rintro (h | ⟨h, h2, h3⟩)
      · exact .inl h
      · by_cases he : p = g
        · exact .inr (.inl ⟨he, h⟩)
        · exact .inr (.inr ⟨h, p, h2, h3, he, rfl⟩)
  · intro q hq hp o hm
    by_cases he : q = g
    · subst he; exact (hf.2.1 o hm).elim
    · exact hf.2.2 q hq hp he o hm

variable {σ : Type}

/-- A group is required. -/
theorem requireGroup_spec {D : List (Path × Obj)} {f : File} (h : Look D f) (name : String) :
    (∀ f1 g, requireGroup f name = .ok (f1, g) → name ≠ "" ∧ g = links name ∧ Sound f1 ∧ Through f (links name) f1) ∧
    (∀ a, a ≠ [] → name ≠ "" → Free f [] (links name ++ a) → ∃ f1, requireGroup f name = .ok (f1, links name)) := by
  by_cases hn : name = ""
  · exact ⟨fun f1 g h1 => by simp [requireGroup, hn] at h1, fun a _ h1 => absurd hn h1⟩
  by_cases hg : find f (links name) = some .group
  · have e : requireGroup f name = .ok (f, links name) := by simp only [requireGroup, if_neg hn, hg]
    refine ⟨fun f1 g h1 => ?_, fun a _ _ _ => ⟨f, e⟩⟩
    rw [e] at h1
    cases h1
    exact ⟨hn, rfl, h.sound, Through.refl h hg⟩
  · have e : requireGroup f name = (match insert f [] .group (links name) with
        | .error e => .error e
        | .ok f => .ok (f, links name)) := by
      rcases hx : find f (links name) with _ | x
      · simp only [requireGroup, if_neg hn, hx]; rfl
      · cases x with
        | group => exact absurd hx hg
        | _ => simp only [requireGroup, if_neg hn, hx]; rfl
    have hne : links name ≠ [] := fun e => hg (by rw [e]; rfl)
    obtain ⟨i1, i2⟩ := insert_spec (o := .group) (links name) h.sound []
    constructor
    · intro f1 g h1
      rw [e] at h1
      rcases hi : insert f [] .group (links name) with _ | f2
      · rw [hi] at h1; cases h1
      · rw [hi] at h1
        cases h1
        obtain ⟨j1, j2, j3⟩ := i1 f1 hi
        exact ⟨hn, rfl, j2, Through.made hne j1 j3⟩
    · intro a ha _ hf
      obtain ⟨f2, hi⟩ := i2 ⟨hne, by
        intro o hm
        have := hf.2.2 (links name) hne (List.prefix_append _ _) (by simpa using ha) o hm
        subst this
        exact hg ((find_some h.sound hne).mpr hm), by
        intro q hq hp hqne o hm
        refine hf.2.2 q hq (hp.trans (List.prefix_append _ _)) ?_ o hm
        rintro rfl
        have := hp.length_le
        rw [List.length_append] at this
        exact ha (List.eq_nil_of_length_eq_zero (by omega))⟩
      exact ⟨f2, by rw [e, hi]⟩

/-- A data set in a group that is there. -/
theorem newDataset_spec {f f1 : File} {g : Path} (hs : Sound f1) (ht : Through f g f1) (name : String) (o : Obj) :
    (∀ f' p, newDataset f1 g name o = .ok (f', p) →
      p = g ++ links name ∧ links name ≠ [] ∧ Free f [] p ∧ Sound f' ∧ Grown f [] p o f') ∧
    (links name ≠ [] → Free f [] (g ++ links name) → ∃ f', newDataset f1 g name o = .ok (f', g ++ links name)) := by
  obtain ⟨i1, i2⟩ := insert_spec (o := o) (links name) hs g
  constructor
  · intro f' p h
    unfold newDataset at h
    rcases hi : insert f1 g o (links name) with _ | f2
    · rw [hi] at h; cases h
    · rw [hi] at h
      cases h
      obtain ⟨j1, j2, j3⟩ := i1 _ hi
      exact ⟨rfl, j1.1, ((ht.free _).mp j1).2, j2, ht.grown j1.1 j3⟩
  · intro hne hf
    obtain ⟨f2, hi⟩ := i2 ((ht.free _).mpr ⟨hne, hf⟩)
    exact ⟨f2, by rw [newDataset, hi]⟩

end Verif.Hdf
