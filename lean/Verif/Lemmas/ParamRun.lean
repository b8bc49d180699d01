import Verif.Lemmas.ParamsExec
import Verif.Spec.ParamRun

namespace Verif.Params

variable {V S W : Type}

/-! ## A schedule as a set of equations -/

/-- No operation reads what it or a later one writes, and each name and each slot occurs once. -/
structure Sorted (ops : List Op) : Prop where
  reads : ∀ pre op post, ops = pre ++ op :: post → ∀ r ∈ op.reads, ∀ s, r.metric = .slot s →
    s ∉ outs (op :: post)
  outs : (outs ops).Nodup
  names : (ops.map Op.name).Nodup

/-- What an operation leaves behind, in terms of the states before and after the whole schedule. -/
def Solves (k : Calcs V S W) (st : Stage) (t : Nat) (x x' : Scene V S W) (op : Op) : Prop :=
  match op.out with
  | some s => k.compute op.name st t (sees st x.world) (x.inner op.name) (valuesOf x'.store op.reads) =
      some (x'.store s, x'.inner op.name)
  | none => k.hook op.name t x.world (x.inner op.name) (valuesOf x'.store op.reads) = some (x'.inner op.name)

/-- All else stays. -/
structure Keeps (ops : List Op) (x x' : Scene V S W) : Prop where
  store : ∀ s, s ∉ outs ops → x'.store s = x.store s
  inner : ∀ n, n ∉ ops.map Op.name → x'.inner n = x.inner n
  world : x'.world = x.world

theorem valuesOf_congr {f g : Slot → V} : ∀ {rs : List Read},
    (∀ r ∈ rs, ∀ s, r.metric = .slot s → f s = g s) → valuesOf f rs = valuesOf g rs := by
  intro rs
  induction rs with
  | nil => intro _; rfl
  | cons r rs ih =>
    intro h
    have h1 := ih fun r hr => h r (List.mem_cons_of_mem _ hr)
    unfold valuesOf
    cases hm : r.metric with
    | slot s => simp only [h r (List.mem_cons_self ..) s hm, h1]
    | literal => exact h1
    | component => exact h1

theorem outs_cons (op : Op) (ops : List Op) : outs (op :: ops) = op.out.toList ++ outs ops := by
  unfold outs
  cases h : op.out <;> simp [h]

theorem Sorted.tail {op : Op} {ops : List Op} (h : Sorted (op :: ops)) : Sorted ops := by
  refine ⟨?_, ?_, ?_⟩
  · intro pre p post he
    exact h.reads (op :: pre) p post (by rw [he]; rfl)
  · have := h.outs
    rw [outs_cons] at this
    exact (List.nodup_append.1 this).2.1
  · exact (List.nodup_cons.1 h.names).2

/-- The operations of a schedule, one after the other, solve the equations and do nothing else. -/
theorem calcAll_iff (k : Calcs V S W) (st : Stage) (t : Nat) : ∀ (ops : List Op) (x x' : Scene V S W),
    Sorted ops → (calcAll k st t ops x = some x' ↔ Keeps ops x x' ∧ ∀ op ∈ ops, Solves k st t x x' op) := by
  intro ops
  induction ops with
  | nil =>
    intro x x' _
    simp only [calcAll, Option.some_inj]
    constructor
    · rintro rfl
      exact ⟨⟨fun _ _ => rfl, fun _ _ => rfl, rfl⟩, fun _ h => by cases h⟩
    · rintro ⟨h, -⟩
      obtain ⟨a, b, c⟩ := x
      obtain ⟨a', b', c'⟩ := x'
      have h1 : a' = a := funext fun s => h.store s (by simp [outs])
      have h2 : b' = b := funext fun n => h.inner n (by simp)
      have h3 : c' = c := h.world
      rw [h1, h2, h3]
  | cons op ops ih =>
    intro x x' hs
    have hread : ∀ r ∈ op.reads, ∀ s, r.metric = .slot s → s ∉ outs (op :: ops) :=
      hs.reads [] op ops rfl
    have hname : op.name ∉ ops.map Op.name := (List.nodup_cons.1 hs.names).1
    have houts := hs.outs
    rw [outs_cons] at houts
    cases ho : op.out with
    | none =>
      have hout : outs (op :: ops) = outs ops := by rw [outs_cons, ho]; rfl
      rw [hout] at hread
      have go : ∀ i, k.hook op.name t x.world (x.inner op.name) (valuesOf x.store op.reads) = some i →
          (calcAll k st t ops { x with inner := fun n => if n = op.name then i else x.inner n } = some x' ↔
            (Keeps (op :: ops) x x' ∧ ∀ p ∈ ops, Solves k st t x x' p) ∧ x'.inner op.name = i) := by
        intro i hi
        rw [ih _ _ hs.tail]
        constructor
        · rintro ⟨hk, hp⟩
          refine ⟨⟨⟨?_, ?_, hk.world⟩, ?_⟩, ?_⟩
          · intro s hn; rw [hout] at hn; exact hk.store s hn
          · intro n hn
            rw [List.map_cons, List.mem_cons, not_or] at hn
            rw [hk.inner n hn.2]; simp [hn.1]
          · intro p hm
            have := hp p hm
            have hne : p.name ≠ op.name := fun h => hname (h ▸ List.mem_map_of_mem hm)
            unfold Solves at this ⊢
            simpa only [hne, if_false] using this
          · rw [hk.inner _ hname]; simp
        · rintro ⟨⟨hk, hp⟩, he⟩
          refine ⟨⟨?_, ?_, hk.world⟩, ?_⟩
          · intro s hn; exact hk.store s (by rw [hout]; exact hn)
          · intro n hn
            by_cases hne : n = op.name
            · subst hne; simp [he]
            · simp only [hne, if_false]
              exact hk.inner n (by rw [List.map_cons, List.mem_cons, not_or]; exact ⟨hne, hn⟩)
          · intro p hm
            have := hp p hm
            have hne : p.name ≠ op.name := fun h => hname (h ▸ List.mem_map_of_mem hm)
            unfold Solves at this ⊢
            simpa only [hne, if_false] using this
      unfold calcAll calcOp
      simp only [ho]
      constructor
      · intro h
        cases hi : k.hook op.name t x.world (x.inner op.name) (valuesOf x.store op.reads) with
        | none => rw [hi] at h; cases h
        | some i =>
          rw [hi] at h
          obtain ⟨⟨hk, hp⟩, he⟩ := (go i hi).1 h
          refine ⟨hk, ?_⟩
          intro p hm
          rcases List.mem_cons.1 hm with rfl | hm
          · unfold Solves
            simp only [ho]
            rw [valuesOf_congr fun r hr s h => hk.store s (by rw [hout]; exact hread r hr s h), hi, he]
          · exact hp p hm
      · rintro ⟨hk, hp⟩
        have hi := hp op (List.mem_cons_self ..)
        unfold Solves at hi
        simp only [ho] at hi
        rw [valuesOf_congr fun r hr s h => hk.store s (by rw [hout]; exact hread r hr s h)] at hi
        rw [hi]
        exact (go _ hi).2 ⟨⟨hk, fun p hm => hp p (List.mem_cons_of_mem _ hm)⟩, rfl⟩
    | some s₀ =>
      have hout : outs (op :: ops) = s₀ :: outs ops := by rw [outs_cons, ho]; rfl
      rw [ho] at houts
      have hs₀ : s₀ ∉ outs ops := (List.nodup_cons.1 houts).1
      rw [hout] at hread
      have go : ∀ v i, k.compute op.name st t (sees st x.world) (x.inner op.name) (valuesOf x.store op.reads) =
            some (v, i) →
          (calcAll k st t ops { x with
              store := fun s' => if s' = s₀ then v else x.store s'
              inner := fun n => if n = op.name then i else x.inner n } = some x' ↔
            (Keeps (op :: ops) x x' ∧ ∀ p ∈ ops, Solves k st t x x' p) ∧ x'.inner op.name = i ∧
              x'.store s₀ = v) := by
        intro v i hi
        rw [ih _ _ hs.tail]
        constructor
        · rintro ⟨hk, hp⟩
          refine ⟨⟨⟨?_, ?_, hk.world⟩, ?_⟩, ?_, ?_⟩
          · intro s hn
            rw [hout, List.mem_cons, not_or] at hn
            rw [hk.store s hn.2]; simp [hn.1]
          · intro n hn
            rw [List.map_cons, List.mem_cons, not_or] at hn
            rw [hk.inner n hn.2]; simp [hn.1]
          · intro p hm
            have := hp p hm
            have hne : p.name ≠ op.name := fun h => hname (h ▸ List.mem_map_of_mem hm)
            unfold Solves at this ⊢
            simpa only [hne, if_false] using this
          · rw [hk.inner _ hname]; simp
          · rw [hk.store _ hs₀]; simp
        · rintro ⟨⟨hk, hp⟩, he, hv⟩
          refine ⟨⟨?_, ?_, hk.world⟩, ?_⟩
          · intro s hn
            by_cases hne : s = s₀
            · subst hne; simp [hv]
            · simp only [hne, if_false]
              exact hk.store s (by rw [hout, List.mem_cons, not_or]; exact ⟨hne, hn⟩)
          · intro n hn
            by_cases hne : n = op.name
            · subst hne; simp [he]
            · simp only [hne, if_false]
              exact hk.inner n (by rw [List.map_cons, List.mem_cons, not_or]; exact ⟨hne, hn⟩)
          · intro p hm
            have := hp p hm
            have hne : p.name ≠ op.name := fun h => hname (h ▸ List.mem_map_of_mem hm)
            unfold Solves at this ⊢
            simpa only [hne, if_false] using this
      unfold calcAll calcOp
      simp only [ho]
      constructor
      · intro h
        cases hi : k.compute op.name st t (sees st x.world) (x.inner op.name) (valuesOf x.store op.reads) with
        | none => rw [hi] at h; cases h
        | some vi =>
          obtain ⟨v, i⟩ := vi
          rw [hi] at h
          obtain ⟨⟨hk, hp⟩, he, hv⟩ := (go v i hi).1 h
          refine ⟨hk, ?_⟩
          intro p hm
          rcases List.mem_cons.1 hm with rfl | hm
          · unfold Solves
            simp only [ho]
            rw [valuesOf_congr fun r hr s h => hk.store s (by rw [hout]; exact hread r hr s h), hi, he, hv]
          · exact hp p hm
      · rintro ⟨hk, hp⟩
        have hi := hp op (List.mem_cons_self ..)
        unfold Solves at hi
        simp only [ho] at hi
        rw [valuesOf_congr fun r hr s h => hk.store s (by rw [hout]; exact hread r hr s h)] at hi
        rw [hi]
        exact (go _ _ hi).2 ⟨⟨hk, fun p hm => hp p (List.mem_cons_of_mem _ hm)⟩, rfl, rfl⟩

end Verif.Params
