import Verif.Proofs.NewsNoun5
/-!
C77: `NewsNounExtractor.train` counts the corpus. Everything it leaves behind is determined by the words of that corpus alone, one
occurrence at a time (`NewsNounSpec.rests`, `befores`, `freq`); an earlier training is replaced, the noun table and the right-part scores
are kept.
-/
namespace Props
open Py Nested NewsNoun NewsNounSpec

theorem C77_train (p : Params) (s : State) (sents : List Str) (h : sents ≠ []) :
    ∃ t, train p s sents = .ok { s with trained := some t } ∧
      -- the frequency of a left part is the number of its occurrences
      (∀ l, lFrequency t l = freq (corpusOf sents p.maxLeft p.maxRight) l) ∧
      (∀ l, Dict.has t.lcount l = true ↔ freq (corpusOf sents p.maxLeft p.maxRight) l ≠ 0) ∧
      -- the L-R graph counts what follows it
      (∀ l r, Dict.get? (row t.lrgraph l) r =
        if r ∈ rests (corpusOf sents p.maxLeft p.maxRight) l then some ((rests (corpusOf sents p.maxLeft p.maxRight) l).count r : Int) else none) ∧
      -- the R-L graph counts what precedes a non-empty right part
      (∀ r l, Dict.get? (row t.rlgraph r) l =
        if l ∈ befores (corpusOf sents p.maxLeft p.maxRight) r then some ((befores (corpusOf sents p.maxLeft p.maxRight) r).count l : Int) else none) ∧
      (∀ r, Dict.getD t.rcount r 0 = ((befores (corpusOf sents p.maxLeft p.maxRight) r).length : Int)) ∧
      -- the eojeol table counts the words that are not too long
      (∀ w, Dict.getD t.eojeols w 0 = if (w.length : Int) ≤ p.maxLeft + p.maxRight then (sents.flatMap splitWs).countP (fun v => decide (v = w)) else 0) := by
  refine ⟨trained p sents, train_ok p s sents h, lFrequency_eq p sents, ?_, get?_row p sents, fun r l => get?_row_rl p sents l r, getD_rcount p sents, ?_⟩
  · intro l
    unfold Dict.has
    rw [get?_lcount]
    have : corpus p sents = corpusOf sents p.maxLeft p.maxRight := rfl
    rw [this]
    split
    · rename_i h; simp [h]
    · rename_i h; simp [h]
  · intro w
    rw [getD_eojeols, List.countP_filter]
    have hc : (corpus p sents).words = sents.flatMap splitWs := rfl
    rw [hc]
    split
    · rename_i hw
      apply List.countP_congr
      intro v _
      constructor
      · intro h; exact (Bool.and_eq_true_iff.1 h).1
      · intro h
        have : v = w := of_decide_eq_true h
        subst this
        simpa using hw
    · rename_i hw
      rw [List.countP_eq_zero]
      intro v _ h
      obtain ⟨h1, h2⟩ := Bool.and_eq_true_iff.1 h
      have : v = w := of_decide_eq_true h1
      subst this
      exact hw (of_decide_eq_true h2)

/-- the two graphs hold the same numbers -/
theorem C77_transposed (p : Params) (s : State) (sents : List Str) (h : sents ≠ []) :
    ∃ t, train p s sents = .ok { s with trained := some t } ∧
      ∀ l r, r ≠ [] → Dict.get? (row t.lrgraph l) r = Dict.get? (row t.rlgraph r) l := by
  refine ⟨trained p sents, train_ok p s sents h, ?_⟩
  intro l r hr
  show Dict.get? (row (buildLR (entries p (countEojeols p sents))) l) r = Dict.get? (row (buildRL (entries p (countEojeols p sents))) r) l
  rw [get?_row_rl, get?_row, count_befores _ _ _ hr]
  have : r ∈ rests (corpus p sents) l ↔ l ∈ befores (corpus p sents) r := by
    rw [← List.count_pos_iff, ← List.count_pos_iff, count_befores _ _ _ hr]
  by_cases h : r ∈ rests (corpus p sents) l
  · rw [if_pos h, if_pos (this.1 h)]
  · rw [if_neg h, if_neg (fun h' => h (this.2 h'))]

/-- an earlier training leaves no trace -/
theorem C77_replaces (p : Params) (s : State) (before sents : List Str) (s₁ : State) (h₁ : train p s before = .ok s₁) :
    train p s₁ sents = train p s sents := by
  unfold train at h₁
  split at h₁
  · cases h₁
  · cases h₁
    rfl

/-- how the words are spread over sentences, and their order, do not matter for any frequency -/
theorem C77_order (p : Params) (s : State) (sents₁ sents₂ : List Str) (h₁ : sents₁ ≠ []) (h₂ : sents₂ ≠ [])
    (hw : (sents₁.flatMap splitWs).Perm (sents₂.flatMap splitWs)) :
    ∃ t₁ t₂, train p s sents₁ = .ok { s with trained := some t₁ } ∧ train p s sents₂ = .ok { s with trained := some t₂ } ∧
      (∀ l r, Dict.get? (row t₁.lrgraph l) r = Dict.get? (row t₂.lrgraph l) r) ∧ (∀ rs l, predict rs t₁ l = predict rs t₂ l) := by
  refine ⟨trained p sents₁, trained p sents₂, train_ok p s _ h₁, train_ok p s _ h₂, ?_, ?_⟩
  · intro l r
    show Dict.get? (row (buildLR (entries p (countEojeols p sents₁))) l) r = Dict.get? (row (buildLR (entries p (countEojeols p sents₂))) l) r
    have hp : (rests (corpus p sents₁) l).Perm (rests (corpus p sents₂) l) := (hw.filter _).map _
    rw [get?_row, get?_row, hp.count_eq]
    by_cases h : r ∈ rests (corpus p sents₁) l
    · rw [if_pos h, if_pos (hp.mem_iff.1 h)]
    · rw [if_neg h, if_neg (fun h' => h (hp.mem_iff.2 h'))]
  · intro rs l
    have hp : (rests (corpus p sents₁) l).Perm (rests (corpus p sents₂) l) := (hw.filter _).map _
    have hf : freq (corpus p sents₁) l = freq (corpus p sents₂) l := hp.length_eq
    have hs : (seen (Dict.get? rs) (corpus p sents₁) l).Perm (seen (Dict.get? rs) (corpus p sents₂) l) := hp.filterMap _
    have hn : ∀ P, num (corpus p sents₁) l P = num (corpus p sents₂) l P := fun P => hp.countP_eq _
    have hd : ∀ P, different (corpus p sents₁) l P = different (corpus p sents₂) l P := fun P => ((hp.filter P).dedup).length_eq
    rw [predict_eq, predict_eq]
    unfold mean share
    rw [hf, hs.length_eq, hs.sum_eq, hn, hn, hd, hd]

theorem C77_empty (p : Params) (s : State) : train p s [] = .error .valueError := rfl

/-! ### the statements are about something -/

section
private def S : State := ⟨[], [], [], [], none⟩
private def sents : List Str := ["학교은  학교을 학생이".toList, "학교은".toList]

-- two occurrences of 학교 + 은 and one of 학교 + 을
example : rests (corpusOf sents 10 7) "학교".toList = ["은".toList, "을".toList, "은".toList] := by decide +kernel
example : befores (corpusOf sents 10 7) "은".toList = ["학교".toList, "학교".toList] := by decide +kernel
example : freq (corpusOf sents 10 7) "학".toList = 4 := by decide +kernel
-- a limit that excludes a left part
example : freq (corpusOf sents 10 1) "학".toList = 0 := by decide +kernel
example : ((train {} S sents).toOption.bind (·.trained)).map
    (fun t => (lFrequency t "학교".toList, Dict.get? (row t.lrgraph "학교".toList) "은".toList)) = some (3, some 2) := by decide +kernel
end

end Props
