import Verif.Props.C20
import Verif.Props.C62
/-! C20: what the second tokenisation of the last right word does to every result. -/
set_option linter.unusedSimpArgs false
set_option linter.unusedVariables false
namespace Props
open Py MaxLR LRSpec

private theorem gap_last (g : Config) (s : Str) (hs : s ≠ []) (hn : ∀ c ∈ s, isSpace c = false) (out : List (Str × Tag)) (h : GapTokens g s out) :
    ∃ w, out.getLast? = some (w, Tag.L) := by
  obtain ⟨hf, rfl⟩ := (gapTokens_iff g s out).1 h
  obtain ⟨h1, h2, h3⟩ := tok_spec g s
  have hne : tok g s ≠ [] := by
    intro h0
    rw [h0] at h3
    obtain ⟨c, hc⟩ := List.exists_mem_of_ne_nil s hs
    have h4 := hn c hc
    have h5 : c.toNat ∈ Spec.whitespace := by
      by_cases h6 : c.toNat ∈ Spec.whitespace
      · exact h6
      · have : c ∈ s.filter (fun c => decide (c.toNat ∉ Spec.whitespace)) := List.mem_filter.2 ⟨hc, by simpa using h6⟩
        rw [← h3] at this; cases this
    rw [(isSpace_iff c).2 h5] at h4
    cases h4
  unfold gapT
  rw [List.getLast?_map, List.getLast?_eq_some_getLast hne]
  exact ⟨_, rfl⟩

private theorem from_last (g : Config) (t : Str) (hn : ∀ c ∈ t, isSpace c = false) {a : Nat} {ps : List Span} {out : List (Str × Tag)}
    (h : From g t a ps out) (hc : ∀ s ∈ ps, s.2.1 ≤ s.2.2 ∧ s.2.2 ≤ t.length) : ∃ w, out.getLast? = some (w, Tag.L) := by
  induction h with
  | last a s gap tail h1 h2 =>
    obtain ⟨ho, hl⟩ := hc s (by simp)
    by_cases hlt : s.2.1 < t.length
    · obtain ⟨w, hw⟩ := gap_last g (t.drop s.2.1) (by intro h; have := congrArg List.length h; simp at this; omega)
        (fun c hc => hn c (List.mem_of_mem_drop hc)) tail h2
      exact ⟨w, by rw [List.getLast?_append, hw]; rfl⟩
    · have hd : t.drop s.2.1 = [] := List.drop_eq_nil_of_le (by omega)
      rw [hd] at h2
      obtain ⟨_, rfl⟩ := (gapTokens_iff g [] tail).1 h2
      have : gapT g [] = [] := by unfold gapT; rw [tok_nil]; rfl
      rw [this, List.append_nil]
      unfold own
      rw [if_neg (by omega)]
      exact ⟨_, by rw [List.getLast?_append]; rfl⟩
  | step a s s' ss gap rest h1 h2 ih =>
    obtain ⟨w, hw⟩ := ih (fun x hx => hc x (by simp [hx]))
    exact ⟨w, by rw [List.getLast?_append, hw]; rfl⟩

/-- **C20 (never a right word last)** Whatever the dictionaries, preferences and thresholds (whenever a result is returned), the tokens of an
    eojeol never end with a right word: `tokenize` returns no split of an eojeol into a left word and a right word. -/
theorem C20_never_ends_in_R (g : Config) (sent : List Char) (out : List (List Char × Tag))
    (h : MaxLR.tokenize g sent = .ok out) :
    ∃ outs : List (List (List Char × Tag)), out = outs.flatten ∧ outs.length = (splitWs sent).length ∧
      ∀ ts ∈ outs, ∃ w, ts.getLast? = some (w, Tag.L) := by
  obtain ⟨outs, h1, rfl⟩ := ((C62_tokens g sent).1 out).1 h
  refine ⟨outs, rfl, h1.length_eq.symm, ?_⟩
  have hw := Py.splitWs_words sent
  generalize splitWs sent = ws at h1 hw
  clear h
  induction h1 with
  | nil => intro ts h; cases h
  | cons hab _ ih =>
    rename_i t o _ _ _
    intro ts hts
    rcases List.mem_cons.1 hts with rfl | hts
    · obtain ⟨_, S, B, hS, hB, ps, _, hp, hor⟩ := hab
      obtain ⟨hne, hn⟩ := hw t (by simp)
      rcases hor with ⟨_, hg⟩ | hf
      · exact gap_last g t hne hn _ hg
      · refine from_last g t hn hf (fun s hs => ?_)
        have := ((hS s).1 ((hB s).1 ((hp s).1 hs)).1).1.1
        exact ⟨this.h2, this.h3⟩
    · exact ih (fun x hx => hw x (by simp [hx])) ts hts

/-- a call that returns, with a right word found inside: 은 is output, tokenised a second time with 요, and the last token is a left one -/
example : MaxLR.tokenize (lrConfig [("은".toList, 1)]) "학생은요".toList = .ok [("학생".toList, .L), ("은".toList, .R), ("은요".toList, .L)] := by
  decide +kernel

end Props
