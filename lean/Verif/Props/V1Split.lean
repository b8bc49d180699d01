import Verif.Props.SchemaSplit
import Verif.Props.SchemaCases
import Verif.Props.V1

/-!
# C92 and C93: river splits, converted and with several splits

In an old model the flows to the slots of a river split and along the river are in the ratios of its factors.
-/

namespace Verif.Schema

open Verif.Topology (Name EdgeDecl)
open Verif.Solver (Metric)

/-- The splits of the schema are those to which an old river split with these factors and slots is converted. -/
def LoadedFrom (factors : List ℚ) (slots : List String) (ss : List Split) : Prop :=
  List.Forall₂ (fun a s => ∃ q, a.metric = V1.Metric.literal q ∧ s = ⟨.const q, some a.name⟩) (V1.splitAttrs factors slots) ss

theorem loaded_factors {f0 : ℚ} {fs : List ℚ} {slots : List String} {ss : List Split} (hl : slots.length = fs.length + 1)
    (h : LoadedFrom (f0 :: fs) slots ss) : ss.map (·.factor) = fs.map (fun f => .const (f / (f0 + fs.sum))) := by
  unfold LoadedFrom V1.splitAttrs at h
  cases slots with
  | nil => simp at hl
  | cons s0 slots =>
    simp only [List.tail_cons, List.sum_cons] at h
    simp only [List.length_cons, Nat.add_right_cancel_iff] at hl
    generalize f0 + fs.sum = T at h ⊢
    induction fs generalizing slots ss with
    | nil => simp at h; simp [h]
    | cons f fs ih =>
      cases slots with
      | nil => simp at hl
      | cons s slots =>
        simp only [List.zipWith_cons_cons] at h
        cases h with
        | cons h1 h2 =>
          obtain ⟨q, hq, rfl⟩ := h1
          simp only [V1.Metric.literal.injEq] at hq
          rw [List.map_cons, List.map_cons, ih slots (by simpa using hl) h2, hq]

section
variable {P : ParamNo} {N : Net} {F : Frag} {C : Core} (h : Built P N F C) {st : Solver.StepState} {f : Nat → ℚ}
  (ha : Solver.Allowed C.model st f) {n : SNode} (hm : n ∈ N.nodes) {b : SplitN} (hb : n.body = .riverSplit b)
include h ha hm hb

/-- Flows through a converted river split: each split is to the river as its factor to the sum of all others. -/
theorem split_converted {f0 : ℚ} {fs : List ℚ} {slots : List String} (hl : slots.length = fs.length + 1)
    (hld : LoadedFrom (f0 :: fs) slots b.splits) (hs : f0 + fs.sum ≠ 0) (i : Nat) (x : ℚ) (hi : fs[i]? = some x) :
    nameFlow F f (splitName n.name i) * (f0 + fs.sum - x) = x * nameFlow F f (n.name, some "bypass") := by
  have he := loaded_factors hl hld
  have hlen : b.splits.length = fs.length := by simpa using congrArg List.length he
  have hlt := (List.getElem?_eq_some_iff.1 hi).1
  have hsi := List.getElem?_eq_getElem (hlen ▸ hlt : i < b.splits.length)
  obtain ⟨g, g1, g2, g3, g4⟩ := split_pair h ha hm hb hsi
  have hfac : b.splits[i].factor = .const (x / (f0 + fs.sum)) := by
    have e := congrArg (fun l => l[i]?) he
    simp only [List.getElem?_map, hsi, hi, Option.map_some, Option.some.injEq] at e
    exact e
  rw [hfac] at g1
  have : x / (f0 + fs.sum) = g := Option.some.inj g1
  subst this
  field_simp at g4
  linarith

/-- **C92 (river splits, partial).** In a converted river split with one split, what goes through the split is to what
continues in the river as their factors in the old model. For several splits this does not hold
(`C92_splits_refuted`). -/
theorem C92_split_partial {f0 f1 : ℚ} {slots : List String} (hl : slots.length = 2)
    (hld : LoadedFrom [f0, f1] slots b.splits) (hs : f0 + f1 ≠ 0) :
    nameFlow F f (splitName n.name 0) * f0 = f1 * nameFlow F f (n.name, some "bypass") := by
  have := split_converted h ha hm hb (fs := [f1]) hl hld (by simpa using hs) 0 f1 rfl
  simp only [List.sum_cons, List.sum_nil, add_zero, add_sub_cancel_right] at this
  exact this

/-- **C92**: in a converted river split with several splits, each gets less than in the old model, whenever water
continues in the river. -/
theorem C92_splits_refuted {f0 : ℚ} {fs : List ℚ} {slots : List String} (hl : slots.length = fs.length + 1)
    (hld : LoadedFrom (f0 :: fs) slots b.splits) (h0 : 0 < f0) (hfs : ∀ x ∈ fs, 0 < x) (h2 : 2 ≤ fs.length)
    (hpos : 0 < nameFlow F f (n.name, some "bypass")) (i : Nat) (x : ℚ) (hi : fs[i]? = some x) :
    nameFlow F f (splitName n.name i) * f0 < x * nameFlow F f (n.name, some "bypass") := by
  have hsum : x < fs.sum := lt_sum fs hfs h2 i x hi
  have hx := hfs x (List.mem_of_getElem? hi)
  have := split_converted h ha hm hb hl hld (by linarith) i x hi
  have hq : 0 < nameFlow F f (splitName n.name i) := by
    by_contra hc
    have h3 : nameFlow F f (splitName n.name i) * (f0 + fs.sum - x) ≤ 0 :=
      mul_nonpos_of_nonpos_of_nonneg (not_lt.1 hc) (by linarith)
    have h4 := mul_pos hx hpos
    linarith
  rw [← this]
  exact mul_lt_mul_of_pos_left (by linarith) hq

/-- **C93**: with several splits, less goes through a split than its factor times what is received beyond the residual flow,
whenever there is any. -/
theorem C93_several_refuted (h2 : 2 ≤ b.splits.length)
    (hpos : nameFlow F f (n.name, some "mrf") < received N F f n.name) (i : Nat) (s : Split) (hs : b.splits[i]? = some s) :
    ∃ g, s.factor.get st.metric = some g ∧
      nameFlow F f (splitName n.name i) < g * (received N F f n.name - nameFlow F f (n.name, some "mrf")) := by
  have hgs : ∃ gs : List ℚ, b.splits.map (fun s => s.factor.get st.metric) = gs.map some := by
    have : ∀ s ∈ b.splits, ∃ g, s.factor.get st.metric = some g := by
      intro s hs
      obtain ⟨j, hj⟩ := List.mem_iff_getElem?.1 hs
      obtain ⟨g, hg, -⟩ := split_pair h ha hm hb hj
      exact ⟨g, hg⟩
    clear hs h2 hb
    revert this
    generalize b.splits = ss
    intro this
    induction ss with
    | nil => exact ⟨[], rfl⟩
    | cons s ss ih =>
      obtain ⟨g, hg⟩ := this s (by simp)
      obtain ⟨gs, h1⟩ := ih fun s hs => this s (by simp [hs])
      exact ⟨g :: gs, by simp [hg, h1]⟩
  obtain ⟨gs, hgs⟩ := hgs
  have hl : b.splits.length = gs.length := by simpa using congrArg List.length hgs
  have hlt := (List.getElem?_eq_some_iff.1 hs).1
  have hgi := List.getElem?_eq_getElem (hl ▸ hlt : i < gs.length)
  obtain ⟨h3, -, h4⟩ := C93_share h ha hm hb hgs i _ hgi
  refine ⟨gs[i], ?_, ?_⟩
  · have e := congrArg (fun l => l[i]?) hgs
    simp only [List.getElem?_map, hs, hgi, Option.map_some, Option.some.injEq] at e
    exact e
  · rw [h3]
    exact mul_lt_mul_of_pos_right (h4 (hl ▸ h2)) (by linarith)

end

/-! ## Cases -/

example := C93_slot lineNet_built lineNet_allowed (n := lineNet.at 8) (by decide +kernel) rfl
example := C93_share lineNet_built lineNet_allowed (n := lineNet.at 8) (by decide +kernel) rfl (gs := [1/2]) rfl 0 (1/2) rfl
example := C92_split_partial lineNet_built lineNet_allowed (n := lineNet.at 8) (by decide +kernel) rfl (f0 := 3) (f1 := 3)
  (slots := ["river", "side"]) rfl (.cons ⟨1/2, by decide +kernel, rfl⟩ .nil) (by decide +kernel)

/-- A river split of an old model with factors 1, 1 and 1, converted: of 11 that are received, 3 are the residual flow and 8 are
shared. -/
def twoNet : Net :=
  { nodes := [⟨"cat", .catchment ⟨none, some (.const 11)⟩, []⟩,
      ⟨"split", .riverSplit ⟨some (.const 3), none, [⟨.const (1/3), some "left"⟩, ⟨.const (1/3), some "right"⟩]⟩, []⟩,
      ⟨"sea", .output ⟨none, none, none⟩, []⟩, ⟨"town", .output ⟨none, none, none⟩, []⟩, ⟨"farm", .output ⟨none, none, none⟩, []⟩]
    virtualNodes := []
    edges := [⟨"cat", "split", none, none⟩, ⟨"split", "sea", none, none⟩, ⟨"split", "town", some (.user "left"), none⟩,
      ⟨"split", "farm", some (.split 1), none⟩] }

def twoFlows : Nat → ℚ := flows (fragOf caseP twoNet)
  [(⟨("cat", none), ("split", some "mrf")⟩, 3), (⟨("cat", none), ("split", some "bypass")⟩, 4),
   (⟨("cat", none), ("split", some "split-0")⟩, 2), (⟨("cat", none), ("split", some "split-1")⟩, 2),
   (⟨("split", some "mrf"), ("sea", none)⟩, 3), (⟨("split", some "bypass"), ("sea", none)⟩, 4),
   (⟨("split", some "split-0"), ("town", none)⟩, 2), (⟨("split", some "split-1"), ("farm", none)⟩, 2)]

theorem twoNet_built : Built caseP twoNet (fragOf caseP twoNet) (coreOf caseP twoNet) := builtCheck_ok (by decide +kernel)

theorem twoNet_allowed : Solver.Allowed (coreOf caseP twoNet).model plainSt twoFlows := allowedCheck_ok (by decide +kernel)

/-- Both slots send 2, a quarter and not a third of the 8 that are shared; 4 continue in the river. -/
theorem C93_two_case : sentVia twoNet (fragOf caseP twoNet) twoFlows "split" (fun s => s = some (.user "left")) = 2 ∧
    sentVia twoNet (fragOf caseP twoNet) twoFlows "split" (fun s => s = some (.split 1)) = 2 ∧
    nameFlow (fragOf caseP twoNet) twoFlows ("split", some "bypass") = 4 ∧
    received twoNet (fragOf caseP twoNet) twoFlows "split" = 11 := by
  decide +kernel

example := C93_slot twoNet_built twoNet_allowed (n := twoNet.at 1) (by decide +kernel) rfl
example := C93_several_refuted twoNet_built twoNet_allowed (n := twoNet.at 1) (by decide +kernel) rfl (by decide) (by decide +kernel) 0 _ rfl
example := C92_splits_refuted twoNet_built twoNet_allowed (n := twoNet.at 1) (by decide +kernel) rfl (f0 := 1) (fs := [1, 1])
  (slots := ["river", "left", "right"]) rfl (.cons ⟨1/3, by decide +kernel, rfl⟩ (.cons ⟨1/3, by decide +kernel, rfl⟩ .nil)) (by decide)
  (by decide) (by decide) (by decide +kernel) 1 1 rfl

end Verif.Schema
