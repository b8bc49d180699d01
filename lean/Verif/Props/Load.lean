import Verif.Lemmas.LoadStory

/-!
# C96: a run has the values its document defines
-/

namespace Verif.Load

open Verif.Params Verif.Kinds

variable {W : Type}

/-- What a completed run reports: there are values for all parameters of the document and all steps that are those the document
defines, in terms of owners, names and metrics; the nodes were solved with the values of their metrics; and the values that are
reported are those of the metrics of the metric sets at the end. The full statement would hold of every document, but for
those that are not `Doc.Apart` it is false (`C97_deficit_captured` and others): names of different things are taken for each
other. -/
theorem C96_run_partial (A : Args W) (D : Doc) (ha : D.Apart A) (hi : A.Injective) (ids : List Nat)
    (prepare : Nat → W → List (Nat × ℚ) → Option W)
    (solve : Nat → W → List ℚ → Option W) (w w' : W) (n : Nat) (qs : List ℚ)
    (hr : D.run A ids prepare solve w n = .done w' qs) :
    ∃ S : Story W, Told A D ids prepare solve w (n + 1) S ∧ S.late n = w' ∧
      List.Forall₂ (SNum A S .late n none) D.outputs qs := by
  unfold Doc.run at hr
  cases hl : D.loaded A with
  | error e => rw [hl] at hr; cases hr
  | ok r =>
    obtain ⟨⟨ss, os, ls⟩, ps⟩ := r
    rw [hl] at hr
    simp only at hr
    cases hb : buildNetwork (ps.length + 1) (builders ps) (refsOf ((pick ids ss).map Prod.snd)) (refsOf ss) with
    | none => rw [hb] at hr; cases hr
    | some net =>
      rw [hb] at hr
      simp only [report] at hr
      cases hrs : resolveAll net.params.maps ((refsOf os).map fun r => ⟨r, .after⟩) with
      | error e => rw [hrs] at hr; cases hr
      | ok reads =>
        rw [hrs] at hr
        simp only at hr
        cases hx : runScene (calcs A.env ps (preparing prepare (pick ids ss)) (solving solve ss)) net w (n + 1) with
        | none => rw [hx] at hr; cases hr
        | some x =>
          rw [hx] at hr
          simp only [Option.map_some] at hr
          cases hc : collect (fetch (some x.world) os (valuesOf x.store reads)) with
          | none => rw [hc] at hr; cases hr
          | some xs =>
            rw [hc] at hr
            simp only [Outcome.done.injEq] at hr
            obtain ⟨rfl, rfl⟩ := hr
            obtain ⟨S, told, hall⟩ := story ha hi hl hb hx
            have h := hall n le_rfl x hx
            exact ⟨S, told, h.world, h.all _ _ (loaded_of ha hi hl).outputs _ hrs _ hc⟩

end Verif.Load
