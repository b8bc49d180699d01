import Verif.Props.Merit
import Verif.Props.SolverCases

/-!
# Cases for C74

Networks with flows of least cost, to which the theorems of `Props/Merit.lean` apply.
-/

namespace Verif.Solver

open Verif.State (NodeKind Edge)
open Verif.Topology (Network TNode Builder)

/-- An input, two links side by side and an output. -/
def lanesB : Builder :=
  ⟨[⟨("in", none), .input⟩, ⟨("a", none), .link⟩, ⟨("b", none), .link⟩, ⟨("out", none), .output⟩],
   [⟨("in", none), ("a", none)⟩, ⟨("in", none), ("b", none)⟩, ⟨("a", none), ("out", none)⟩, ⟨("b", none), ("out", none)⟩], []⟩

/-- The first link carries at most 3 at a cost of 1, the second at most 10 at a cost of 3; the output takes at most 5 and gains
10 for each. The links are together in an aggregated node. -/
def lanesM : Model :=
  ⟨netOf lanesB,
   fun k => [plainNode, { plainNode with maxFlow := some (.const 3), cost := some (.const 1) },
     { plainNode with maxFlow := some (.const 10), cost := some (.const 3) },
     { plainNode with maxFlow := some (.const 5), cost := some (.const (-10)) }].getD k plainNode,
   [⟨[[1, 2]], none, some (.const 8), none⟩], []⟩

/-- A day. -/
def lanesSt : StepState := ⟨fun _ => none, fun _ => none, fun _ => false, fun _ => none, 1⟩

/-- Costs of the nodes. -/
def lanesCost (n : TNode) : ℚ := [0, 1, 3, -10].getD n.index 0

/-- Three by the cheaper link, two by the dearer one. -/
def lanesF : Nat → ℚ := vals [3, 2, 3, 2]

/-- The nodes of the network. -/
def lanesNode (k : Nat) : TNode := lanesM.net.nodes.getD k ⟨0, ("", none), .input, [], [], []⟩

theorem lanes_valid : lanesM.Valid := ⟨⟨lanesB, netOf_built lanesB (by decide +kernel)⟩, by decide +kernel, by decide +kernel⟩

theorem lanes_nodes : lanesM.net.nodes =
    [⟨0, ("in", none), .input, [], [0, 1], []⟩, ⟨1, ("a", none), .link, [0], [2], []⟩, ⟨2, ("b", none), .link, [1], [3], []⟩,
     ⟨3, ("out", none), .output, [2, 3], [], []⟩] := by decide +kernel

theorem lanes_edges : lanesM.net.edges.length = 4 := by decide +kernel

theorem f64MAX_large : (100 : ℚ) < f64MAX := by decide +kernel

/-- The flows have the least cost. -/
theorem lanes_least : LeastCost lanesM f64MAX (-f64MAX) lanesSt lanesCost lanesF := by
  have hbig := f64MAX_large
  refine ⟨⟨?_, ?_, ?_, ?_, ?_, ?_⟩, ⟨?_, ?_, ?_, ?_, ?_⟩, ?_⟩
  · decide +kernel
  · unfold Balanced; decide +kernel
  · intro n hn
    rw [lanes_nodes] at hn
    simp only [List.mem_cons, List.not_mem_nil, or_false] at hn
    rcases hn with rfl | rfl | rfl | rfl <;>
      simp [NodeOk, AtLeast, AtMost, lanesM, lanesF, vals, nodeFlow, plainNode, Metric.get] <;>
      first | linarith | (constructor <;> linarith)
  · intro a ha
    simp only [lanesM, List.mem_singleton] at ha
    subst ha
    have e : aggFlow lanesM.net lanesF ⟨[[1, 2]], none, some (.const 8), none⟩ = 5 := by decide +kernel
    rw [e]
    simp [AtLeast, AtMost, Metric.get]
    norm_num
  · intro a ha F hF
    simp only [lanesM, List.mem_singleton] at ha
    subst ha
    simp [AggNode.factors] at hF
  · intro k v hv
    simp [lanesM] at hv
  · decide +kernel
  · intro n hn _
    rw [lanes_nodes] at hn
    simp only [List.mem_cons, List.not_mem_nil, or_false] at hn
    rcases hn with rfl | rfl | rfl | rfl <;> (simp [lanesF, vals, nodeFlow]; constructor <;> linarith)
  · intro a ha
    simp only [lanesM, List.mem_singleton] at ha
    subst ha
    decide +kernel
  · intro v hv
    simp [lanesM] at hv
  · intro a ha F cps ps hF
    simp only [lanesM, List.mem_singleton] at ha
    subst ha
    simp [AggNode.factors] at hF
  · intro f' ha _
    have hb := ha.balanced
    have hn := ha.nodes
    have h0 := ha.nonneg
    rw [lanes_edges] at h0
    unfold Balanced at hb
    rw [lanes_nodes] at hb hn
    have b1 := hb ⟨1, ("a", none), .link, [0], [2], []⟩ (by simp) rfl
    have b2 := hb ⟨2, ("b", none), .link, [1], [3], []⟩ (by simp) rfl
    have n1 := hn ⟨1, ("a", none), .link, [0], [2], []⟩ (by simp)
    have n3 := hn ⟨3, ("out", none), .output, [2, 3], [], []⟩ (by simp)
    simp [NodeOk, AtLeast, AtMost, lanesM, nodeFlow, plainNode, Metric.get] at b1 b2 n1 n3
    unfold totalCost
    rw [lanes_nodes]
    simp [lanesCost, nodeFlow, lanesF, vals]
    linarith

theorem lanes_inside : Inside lanesM f64MAX (-f64MAX) lanesF := by
  have hbig := f64MAX_large
  refine ⟨by decide +kernel, ?_, by decide +kernel, by decide +kernel⟩
  intro n hn _
  rw [lanes_nodes] at hn
  simp only [List.mem_cons, List.not_mem_nil, or_false] at hn
  rcases hn with rfl | rfl | rfl | rfl <;> (simp [lanesF, vals, nodeFlow]; constructor <;> linarith)

/-- The links. -/
def laneA : TNode := ⟨1, ("a", none), .link, [0], [2], []⟩
def laneB : TNode := ⟨2, ("b", none), .link, [1], [3], []⟩
/-- The ends. -/
def laneIn : TNode := ⟨0, ("in", none), .input, [], [0, 1], []⟩
def laneOut : TNode := ⟨3, ("out", none), .output, [2, 3], [], []⟩

theorem lanes_leads : Leads lanesM.net 0 laneIn laneA ∧ Leads lanesM.net 2 laneA laneOut ∧ Leads lanesM.net 1 laneIn laneB ∧
    Leads lanesM.net 3 laneB laneOut := by
  unfold Leads
  decide +kernel

theorem lanes_beside : Beside lanesM.net laneA laneB := by
  have wf := Created.wf lanes_valid
  obtain ⟨h1, h2, h3, h4⟩ := lanes_leads
  have hb : laneB ∈ lanesM.net.nodes := by rw [lanes_nodes]; decide
  constructor
  · intro e u h
    have he : e = 1 := by
      have := (leads_in wf h hb).2 rfl
      simpa [laneB] using this
    subst he
    have hu : u ∈ lanesM.net.nodes := List.mem_of_getElem? h.1
    have := (leads_out wf h3 hu).1 ((leads_out wf h hu).2 rfl)
    subst this
    exact ⟨0, h1⟩
  · intro e v h
    have he : e = 3 := by
      have := (leads_out wf h hb).2 rfl
      simpa [laneB] using this
    subst he
    have hv : v ∈ lanesM.net.nodes := List.mem_of_getElem? h.2.1
    have := (leads_in wf h4 hv).1 ((leads_in wf h hv).2 rfl)
    subst this
    exact ⟨2, h2⟩

/-- The case for merit order: every hypothesis holds, and indeed the cheaper link is full while the dearer one carries two. -/
example : LeastCost lanesM f64MAX (-f64MAX) lanesSt lanesCost lanesF ∧ Inside lanesM f64MAX (-f64MAX) lanesF ∧
    Beside lanesM.net laneA laneB ∧ Alike lanesM laneA laneB ∧ lanesCost laneA < lanesCost laneB ∧
    Full lanesM lanesSt lanesF laneA ∧ ¬ Least lanesM lanesSt lanesF laneB ∧ nodeFlow lanesF laneB = 2 := by
  refine ⟨lanes_least, lanes_inside, lanes_beside, ⟨by decide +kernel, by decide +kernel⟩, by decide +kernel, ?_, ?_, by decide +kernel⟩
  · show some (3 : ℚ) = some (nodeFlow lanesF laneA); decide +kernel
  · show ¬ nodeFlow lanesF laneB = 0; decide +kernel

/-- The case for a bottleneck: by the dearer link a unit would still gain seven, and indeed the output is full. Here without the
aggregated node. -/
example : ∃ M : Model, M.Valid ∧ LeastCost M f64MAX (-f64MAX) lanesSt lanesCost lanesF ∧ Inside M f64MAX (-f64MAX) lanesF ∧
    Way M.net laneIn [1, 3] [laneB] laneOut ∧ Source laneIn ∧ Sink laneOut ∧ Apart M [laneIn, laneOut, laneB] ∧
    wayCost lanesCost laneIn [laneB] laneOut = -7 ∧ Full M lanesSt lanesF laneOut := by
  obtain ⟨_, _, h3, h4⟩ := lanes_leads
  refine ⟨{ lanesM with aggs := [] }, ⟨lanes_valid.built, by simp, lanes_valid.vs⟩, ⟨?_, ?_, ?_⟩, ?_, ?_, Or.inl rfl, Or.inl rfl,
    ⟨by simp, by simp [lanesM]⟩, by decide +kernel, ?_⟩
  · have := lanes_least.allowed
    exact ⟨this.nonneg, this.balanced, this.nodes, by simp, by simp, this.vs⟩
  · have := lanes_least.within
    exact ⟨this.edges, this.nodes, by simp, this.vs, by simp⟩
  · intro f' ha hw
    have hb := ha.balanced
    have hn := ha.nodes
    have h0 := ha.nonneg
    unfold Balanced at hb
    simp only [lanes_nodes] at hb hn
    have b1 := hb laneA (by simp [laneA]) rfl
    have b2 := hb laneB (by simp [laneB]) rfl
    have n1 := hn laneA (by simp [laneA])
    have n3 := hn laneOut (by simp [laneOut])
    simp [NodeOk, AtLeast, AtMost, lanesM, nodeFlow, plainNode, Metric.get, laneA, laneB, laneOut] at b1 b2 n1 n3
    unfold totalCost
    simp only [lanes_nodes]
    simp [lanesCost, nodeFlow, lanesF, vals]
    linarith
  · have := lanes_inside
    exact ⟨this.edges, this.nodes, by simp, this.vs⟩
  · exact .cons _ _ _ _ _ _ h3 rfl (.last _ _ _ h4)
  · show some (5 : ℚ) = some (nodeFlow lanesF laneOut); decide +kernel

/-- The case for sending less: the dearer way carries two, everything on it is above its minimum, and it costs -7. -/
example : (∀ e ∈ [1, 3], 0 < lanesF e) ∧ NodesHaveRoom lanesM lanesSt lanesF (instead [] [1, 3]) ∧
    GroupsHaveRoom lanesM lanesSt lanesF (instead [] [1, 3]) ∧ wayCost lanesCost laneIn [laneB] laneOut = -7 := by
  refine ⟨by decide +kernel, ⟨?_, ?_, ?_, ?_⟩, ⟨?_, ?_, ?_, ?_, ?_⟩, by decide +kernel⟩
  · intro n hn _ h
    rw [lanes_nodes] at hn
    simp only [List.mem_cons, List.not_mem_nil, or_false] at hn
    rcases hn with rfl | rfl | rfl | rfl <;> refine ⟨0, rfl, ?_⟩ <;> decide +kernel
  · intro n hn _ h
    exfalso
    rw [lanes_nodes] at hn
    revert n
    decide +kernel
  · intro n hn hk
    rw [lanes_nodes] at hn
    exfalso
    revert n
    decide
  · intro n hn hk
    rw [lanes_nodes] at hn
    exfalso
    revert n
    decide
  · intro a ha _
    simp only [lanesM, List.mem_singleton] at ha
    subst ha
    exact ⟨0, rfl, by decide +kernel⟩
  · intro a ha h
    simp only [lanesM, List.mem_singleton] at ha
    subst ha
    exfalso
    revert h
    decide +kernel
  · intro a ha F ps hF
    simp only [lanesM, List.mem_singleton] at ha
    subst ha
    simp [AggNode.factors] at hF
  · intro k v hv; simp [lanesM] at hv
  · intro k v hv; simp [lanesM] at hv

/-- The case for the cheapest way: flow could move from the cheaper link to the dearer one, which has room. -/
example : (∀ e ∈ [0, 2], 0 < lanesF e) ∧ NodesHaveRoom lanesM lanesSt lanesF (instead [1, 3] [0, 2]) ∧
    GroupsHaveRoom lanesM lanesSt lanesF (instead [1, 3] [0, 2]) ∧ lanesCost laneA = 1 ∧ lanesCost laneB = 3 := by
  refine ⟨by decide +kernel, ⟨?_, ?_, ?_, ?_⟩, groups_blind ?_ (by decide +kernel), by decide +kernel, by decide +kernel⟩
  · intro n hn _ h
    rw [lanes_nodes] at hn
    simp only [List.mem_cons, List.not_mem_nil, or_false] at hn
    rcases hn with rfl | rfl | rfl | rfl <;> refine ⟨0, rfl, ?_⟩ <;> decide +kernel
  · intro n hn _ h
    rw [lanes_nodes] at hn
    simp only [List.mem_cons, List.not_mem_nil, or_false] at hn
    rcases hn with rfl | rfl | rfl | rfl
    · exact absurd h (by decide +kernel)
    · exact absurd h (by decide +kernel)
    · exact ⟨10, rfl, by decide +kernel⟩
    · exact absurd h (by decide +kernel)
  · intro n hn hk
    rw [lanes_nodes] at hn
    exfalso
    revert n
    decide
  · intro n hn hk
    rw [lanes_nodes] at hn
    exfalso
    revert n
    decide
  · decide +kernel

/-- The case for service: an output that costs one is not served though there is room. -/
example : ∃ (M : Model) (u l v : TNode), M.Valid ∧ LeastCost M f64MAX (-f64MAX) lanesSt (fun n => if n.index = 2 then 1 else 0) (fun _ => 0) ∧
    Inside M f64MAX (-f64MAX) (fun _ => 0) ∧ Way M.net u [0, 1] [l] v ∧ Source u ∧ Sink v ∧
    NodesHaveRoom M lanesSt (fun _ => 0) (along [0, 1]) ∧ GroupsHaveRoom M lanesSt (fun _ => 0) (along [0, 1]) := by
  have hbig := f64MAX_large
  have hnodes : (netOf chainB).nodes = [⟨0, ("in", none), .input, [], [0], []⟩, ⟨1, ("mid", none), .link, [0], [1], []⟩,
      ⟨2, ("out", none), .output, [1], [], []⟩] := by decide +kernel
  have hlen : (netOf chainB).edges.length = 2 := by decide +kernel
  refine ⟨⟨netOf chainB, fun _ => plainNode, [], []⟩, ⟨0, ("in", none), .input, [], [0], []⟩, ⟨1, ("mid", none), .link, [0], [1], []⟩,
    ⟨2, ("out", none), .output, [1], [], []⟩, ⟨⟨chainB, netOf_built chainB (by decide +kernel)⟩, by simp, by simp⟩,
    ⟨⟨by simp, by intro n _ _; simp, ?_, by simp, by simp, by simp⟩, ⟨?_, ?_, by simp, by simp, by simp⟩, ?_⟩,
    ⟨?_, ?_, by simp, by simp⟩, ?_, Or.inl rfl, Or.inl rfl, ⟨?_, ?_, ?_, ?_⟩, ⟨by simp, by simp, by simp, by simp, by simp⟩⟩
  · intro n hn
    simp only [hnodes, List.mem_cons, List.not_mem_nil, or_false] at hn
    rcases hn with rfl | rfl | rfl <;> simp [NodeOk, AtLeast, AtMost, nodeFlow, plainNode] <;> linarith
  · intro e _; linarith
  · intro n hn _
    simp only [hnodes, List.mem_cons, List.not_mem_nil, or_false] at hn
    rcases hn with rfl | rfl | rfl <;> (simp [nodeFlow]; linarith)
  · intro f' ha _
    have := ha.nonneg 1 (by simp [hlen])
    unfold totalCost
    simp only [hnodes]
    simp [nodeFlow]
    exact this
  · intro e _; linarith
  · intro n hn _
    simp only [hnodes, List.mem_cons, List.not_mem_nil, or_false] at hn
    rcases hn with rfl | rfl | rfl <;> (simp [nodeFlow]; linarith)
  · exact .cons _ _ _ _ _ _ (by unfold Leads; decide +kernel) rfl (.last _ _ _ (by unfold Leads; decide +kernel))
  · intro n hn _ h
    exfalso
    simp only [hnodes, List.mem_cons, List.not_mem_nil, or_false] at hn
    rcases hn with rfl | rfl | rfl <;> revert h <;> decide +kernel
  · intro n hn _ h
    simp only [hnodes, List.mem_cons, List.not_mem_nil, or_false] at hn
    rcases hn with rfl | rfl | rfl <;> exact ⟨f64MAX, rfl, by simp [nodeFlow]; linarith⟩
  · intro n hn hk
    simp only [hnodes, List.mem_cons, List.not_mem_nil, or_false] at hn
    rcases hn with rfl | rfl | rfl <;> cases hk
  · intro n hn hk
    simp only [hnodes, List.mem_cons, List.not_mem_nil, or_false] at hn
    rcases hn with rfl | rfl | rfl <;> cases hk

end Verif.Solver
