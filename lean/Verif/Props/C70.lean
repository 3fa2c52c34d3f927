import Verif.Props.C69
/-! C70: the frequencies that NewsPOSExtractor.extract returns. -/
namespace Props
open Py PosSpec NewsPos

/-- C70 (a): adverbs are counted exactly: as often as they occur as an eojeol -/
theorem C70_adverb {s s' : State} {t : WordTags} (hE : WordLike s.eojeols) (h : extract s = .ok (s', t)) (w : Str) :
    Dict.get? t.adverb w = if w ∈ s.adverbs then Dict.get? s.eojeols w else none := by
  obtain ⟨f, ca, cv, N⟩ := extract_news hE.1 h
  rw [N.tB, Dict.get?_filter hE.1]
  by_cases hw : w ∈ s.adverbs
  · rw [if_pos hw]
    have : s.adverbs.contains w = true := by simpa using hw
    cases Dict.get? s.eojeols w <;> simp [Option.filter, hw]
  · rw [if_neg hw]
    cases Dict.get? s.eojeols w <;> simp [Option.filter, hw]

private theorem irr_mass {s s' : State} {t : WordTags} {f : Found} {ca cv : Str → Option (List (Str × Str))} (N : News s s' t f ca cv) (P : Str → Bool) :
    mass s.eojeols (fun e => !Dict.has t.irrecognizable e && P e) = mass s.eojeols (fun e => !Dict.has f.eojeols e && P e) +
      mass f.eojeols (fun e => (nounOf f.nouns (suffixOf f) e).isSome && P e) := by
  rw [N.tI]; exact mass_removed N.facts.inv.sub _ _

/-- C70 (b): a returned adjective is an eojeol of the corpus; its frequency is at least that of the eojeol, and at most the total frequency of
    the recognised eojeols that end with it -/
theorem C70_adjective {s s' : State} {t : WordTags} (hE : WordLike s.eojeols) (h : extract s = .ok (s', t)) (w : Str) (n : Nat)
    (l : Option (List (Str × Str))) (hw : Dict.get? t.adjective w = some (n, l)) :
    In s.eojeols w ∧ Dict.getD s.eojeols w 0 ≤ n ∧ n ≤ mass s.eojeols (fun e => !Dict.has t.irrecognizable e && decide (w <:+ e)) := by
  obtain ⟨f, ca, cv, N⟩ := extract_news hE.1 h
  rw [N.tA, get?_asPredicator N.facts.inv.wfA] at hw
  cases hg : Dict.get? f.adjectives w with
  | none => rw [hg] at hw; cases hw
  | some m =>
    rw [hg] at hw
    cases hw
    have hk : w ∈ Dict.keys f.adjectives := by rw [← Dict.isSome_get?_iff, hg]; rfl
    have hn : Dict.getD f.adjectives w 0 = n := getD_of_has hg
    refine ⟨?_, by rw [← hn]; exact N.facts.inv.lowA w hk, ?_⟩
    · rcases (N.facts.keysA w).1 hk with h1 | h1
      · exact h1.1
      · exact h1.1.1
    · have := N.facts.inv.upA w
      rw [irr_mass N]; omega

/-- C70 (c): the same for verbs -/
theorem C70_verb {s s' : State} {t : WordTags} (hE : WordLike s.eojeols) (h : extract s = .ok (s', t)) (w : Str) (n : Nat)
    (l : Option (List (Str × Str))) (hw : Dict.get? t.verb w = some (n, l)) :
    In s.eojeols w ∧ Dict.getD s.eojeols w 0 ≤ n ∧ n ≤ mass s.eojeols (fun e => !Dict.has t.irrecognizable e && decide (w <:+ e)) := by
  obtain ⟨f, ca, cv, N⟩ := extract_news hE.1 h
  rw [N.tV, get?_asPredicator N.facts.inv.wfV] at hw
  cases hg : Dict.get? f.verbs w with
  | none => rw [hg] at hw; cases hw
  | some m =>
    rw [hg] at hw
    cases hw
    have hk : w ∈ Dict.keys f.verbs := by rw [← Dict.isSome_get?_iff, hg]; rfl
    have hn : Dict.getD f.verbs w 0 = n := getD_of_has hg
    refine ⟨?_, by rw [← hn]; exact N.facts.inv.lowV w hk, ?_⟩
    · rcases (N.facts.keysV w).1 hk with h1 | h1
      · exact h1.1
      · exact h1.1.1
    · have := N.facts.inv.upV w
      rw [irr_mass N]; omega

/-- C70 (d): the frequency of a returned noun is at least that of the eojeol (for nouns known beforehand) and at most three times the total frequency of
    the recognised eojeols that begin with it -/
theorem C70_noun {s s' : State} {t : WordTags} (hE : WordLike s.eojeols) (h : extract s = .ok (s', t)) (w : Str) (n : Nat)
    (hw : Dict.get? t.noun w = some n ∨ Dict.get? t.confusedNouns w = some n) :
    (w ∈ s.nouns → Dict.getD s.eojeols w 0 ≤ n) ∧ n ≤ 3 * mass s.eojeols (fun e => !Dict.has t.irrecognizable e && decide (w <+: e)) := by
  obtain ⟨f, ca, cv, N⟩ := extract_news hE.1 h
  have hwf : Dict.WF (cumulate f.nouns (cumulate [] (credit f.eojeols (nounOf f.nouns (suffixOf f))))) := wf_cumulate N.facts.inv.wfN _
  have hn : Dict.get? (cumulate f.nouns (cumulate [] (credit f.eojeols (nounOf f.nouns (suffixOf f))))) w = some n := by
    rcases hw with hw | hw
    · rw [N.tN, Dict.get?_filter hwf] at hw
      exact (Option.filter_eq_some_iff.1 hw).1
    · rw [N.tC, Dict.get?_filter hwf] at hw
      exact (Option.filter_eq_some_iff.1 hw).1
  have hn' := getD_of_has hn
  rw [getD_cumulate_dict _ (wf_cumulate Dict.wf_nil _), getD_cumulate] at hn'
  have h0 : Dict.getD ([] : Dict Str Nat) w 0 = 0 := rfl
  rw [h0, Nat.zero_add] at hn'
  constructor
  · intro hs
    have := N.facts.inv.lowN w hs
    omega
  · have h1 := N.facts.inv.upN w
    have h2 : mass (credit f.eojeols (nounOf f.nouns (suffixOf f))) (fun e => decide (e = w)) ≤
        mass f.eojeols (fun e => (nounOf f.nouns (suffixOf f) e).isSome && decide (w <+: e)) := by
      apply mass_credit_le
      intro e he hg
      have hin : In s.eojeols e := ((N.facts.eoj e).1 he).1.1
      obtain ⟨hne, hsp⟩ := hE.2 e hin
      obtain ⟨_, rest, h3, _⟩ := nounOf_some hne hsp hg
      exact ⟨by rw [hg]; rfl, by rw [decide_eq_true_eq, h3]; exact List.prefix_append _ _⟩
    rw [irr_mass N]; omega

/-- an extractor for which 가 is a particle and also occurs as adjective and as verb -/
def demoOvercount : State :=
  { nouns := ["학교".toList], adjectives := [("가".toList, (1, [("가".toList, "ㅏ".toList)]))], verbs := [("가".toList, (1, [("가".toList, "ㅏ".toList)]))],
    adjectiveStems := [], verbStems := [], eomis := ["ㅏ".toList], josas := ["가".toList], adverbs := [],
    eojeols := [("학교".toList, 1), ("학교가".toList, 10), ("가".toList, 1)] }

/-- C70 (e): the factor three is real: a noun can be counted three times for one occurrence (finding) -/
theorem C70_noun_overcount : ∃ s s' t n, WordLike s.eojeols ∧ extract s = .ok (s', t) ∧ Dict.get? t.noun "학교".toList = some n ∧
    n = 31 ∧ mass s.eojeols (fun e => decide ("학교".toList <+: e)) = 11 := by
  have h : (match extract demoOvercount with
    | .ok (_, t) => decide (Dict.get? t.noun "학교".toList = some 31)
    | .error _ => false) = true := by decide +kernel
  cases he : extract demoOvercount with
  | error e => rw [he] at h; cases h
  | ok x =>
    rw [he] at h
    refine ⟨demoOvercount, x.1, x.2, 31, ⟨by unfold Dict.WF; decide +kernel, ?_⟩, he, of_decide_eq_true h, rfl, by decide +kernel⟩
    have : ∀ w ∈ Dict.keys demoOvercount.eojeols, w ≠ [] ∧ ∀ c ∈ w, isSpace c = false := by decide +kernel
    exact this

end Props
