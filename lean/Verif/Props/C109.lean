import Verif.Model.TagDebug
import Verif.Props.C39
/-!
C109: `SimpleTagger.tag(debug=True)`. With the L-R components it returns the tags of `debug=False` and, for every eojeol, all candidates with their
scores ordered by begin and score. With `EojeolTemplateMatcher` it raises AttributeError for every sentence that has a word.
-/
namespace Props
open Py PT

/-- `x` is not listed after `y` in the debugging output: it begins earlier, or at the same place with a score that is not higher -/
def DebugBefore (x y : LR × Rat) : Prop := x.1.b < y.1.b ∨ x.1.b = y.1.b ∧ x.2 ≤ y.2

private theorem debugLe_iff (x y : LR × Rat) : debugLe (fun c : LR => c.b) x y = true ↔ DebugBefore x y := by
  unfold debugLe DebugBefore
  simp

/-- **C109** The L-R components: nothing is raised, the tags are those without `debug`, and the row of each eojeol lists every candidate once
    for each time it was generated, with its score, ordered by begin and then by score. -/
theorem C109_lr (g : LRMatcher) (score : LR → Rat) (post : Option (Str → List LR → List LR)) (sentence : Str) :
    ∃ tags rows, tagDebug g.generate (fun cs => some (selectBestLR score cs)) post (some (fun c => c.b)) score sentence = .ok (tags, rows) ∧
      tagSentence (fun e => some (selectBestLR score (g.generate e))) post sentence = .ok tags ∧
      List.Forall₂ (fun e row => row.Perm ((g.generate e).map (fun c => (c, score c))) ∧ row.Pairwise DebugBefore) (splitWs sentence) rows := by
  unfold tagDebug tagSentence
  induction splitWs sentence with
  | nil => exact ⟨[], [], rfl, rfl, .nil⟩
  | cons e es ih =>
    obtain ⟨tags, rows, h1, h2, h3⟩ := ih
    have hrow : ∃ row, debugRow (some (fun c : LR => c.b)) score (g.generate e) = .ok row ∧
        row.Perm ((g.generate e).map (fun c => (c, score c))) ∧ row.Pairwise DebugBefore := by
      unfold debugRow
      cases g.generate e with
      | nil => exact ⟨[], rfl, .refl _, .nil⟩
      | cons c cs =>
        refine ⟨_, rfl, sorted_perm _ _, ?_⟩
        have hp : TotalPre (debugLe (fun c : LR => c.b)) := by
          constructor
          · intro x y z
            rw [debugLe_iff, debugLe_iff, debugLe_iff]
            unfold DebugBefore
            rintro (h | ⟨h, h'⟩) (k | ⟨k, k'⟩)
            · exact .inl (by omega)
            · exact .inl (by omega)
            · exact .inl (by omega)
            · exact .inr ⟨by omega, Rat.le_trans h' k'⟩
          · intro x y
            rw [debugLe_iff, debugLe_iff]
            unfold DebugBefore
            rcases Nat.lt_trichotomy x.1.b y.1.b with h | h | h
            · exact .inl (.inl h)
            · rcases Rat.le_total (a := x.2) (b := y.2) with h' | h'
              · exact .inl (.inr ⟨h, h'⟩)
              · exact .inr (.inr ⟨h.symm, h'⟩)
            · exact .inr (.inl h)
        exact (pairwise_sorted hp _).imp (fun h => (debugLe_iff _ _).1 h)
    obtain ⟨row, hr, hr1, hr2⟩ := hrow
    refine ⟨flattenWords (applyPost post e (selectBestLR score (g.generate e))) :: tags, row :: rows, ?_, ?_, .cons ⟨hr1, hr2⟩ h3⟩
    · unfold tagDebugGo tagEojeol
      dsimp only
      rw [hr, h1]
    · rw [List.mapM_cons, h2]
      rfl

/-- **C109** `EojeolTemplateMatcher` with any scoring and postprocessing: `debug=True` raises AttributeError exactly if the sentence has a word; for a
    blank sentence it returns two empty lists. -/
theorem C109_eojeol (g : EojeolMatcher) (hd : DReach g.dictionary) (score : List LR → Rat) (post : Option (Str → List LR → List LR)) (sentence : Str) :
    tagDebug g.generate (selectBest score) post none score sentence =
      if splitWs sentence = [] then .ok ([], []) else .error .attributeError := by
  unfold tagDebug
  cases splitWs sentence with
  | nil => rfl
  | cons e es =>
    have hne := (C40_candidates g hd e).1
    rw [if_neg (by simp)]
    unfold tagDebugGo tagEojeol
    dsimp only
    cases hb : selectBest score (g.generate e) with
    | none => exact absurd ((C40_select_best score _).1.1 hb) hne
    | some b =>
      dsimp only
      unfold debugRow
      cases hg : g.generate e with
      | nil => exact absurd hg hne
      | cons c cs => rfl

/-! ### a concrete case -/

private def dict : State := ⟨[("Noun".toList, 0), ("Josa".toList, 1)], [.set ["아이".toList], .set ["는".toList]], 2⟩

example : (match tagDebug (LRMatcher.generate { dictionary := dict }) (fun cs => some (selectBestLR (evaluateLR {}) cs)) (some postprocess) (some (fun c => c.b))
      (evaluateLR {}) "아이는 ".toList with
    | .ok (tags, rows) => decide (tags = [[("아이".toList, some "Noun".toList), ("는".toList, some "Josa".toList)]] ∧
        rows.map (fun row => row.map (fun x => (x.1.l, x.1.r, x.2))) = [[("아이".toList, [], 1/2), ("아이".toList, "는".toList, 3/4)]])
    | .error _ => false) = true := by decide +kernel

example : (match tagDebug (EojeolMatcher.generate { dictionary := dict }) (selectBest (evaluateEojeol {})) none none (evaluateEojeol {}) "아이는".toList with
    | .error .attributeError => true | _ => false) = true := by decide +kernel

end Props
