import Verif.Props.C102V2
/-! C103: raising the thresholds of `LRNounExtractor_v2.extract`. -/
set_option linter.unusedVariables false
set_option linter.unusedSimpArgs false
namespace Props
open Py Nested

private theorem accepted_mono {d comps : Dict Str (Rat × Rat)} {m f f' : Rat} (h : f ≤ f') {w : Str} {x : Rat × Rat} (ha : V2Accepted d comps m f' w x) :
    V2Accepted d comps m f w x := ⟨h.trans ha.1, ha.2⟩

private theorem accepted_lift {d comps : Dict Str (Rat × Rat)} {m f f' : Rat} {w : Str} {x : Rat × Rat} (ha : V2Accepted d comps m f w x) (h : f' ≤ x.1) :
    V2Accepted d comps m f' w x := ⟨h, ha.2⟩

private theorem noun_mono {p : V2.Params} {F : V2.Features} {c : Dict Str Int} {d comps : Dict Str (Rat × Rat)} {m f f' : Rat} (h : f ≤ f') {w : Str} {x : Rat × Rat}
    (hn : V2Noun p F c d comps m f' w x) :
    V2Noun p F c d comps m f w x ∨ ∃ l r y, w = l ++ r ∧ 2 ≤ l.length ∧ 2 ≤ r.length ∧ r ∈ F.pos ∧ V2Accepted d comps m f l y ∧ y.1 < f' := by
  obtain ⟨⟨h1, h2, h3, h4⟩, h5⟩ := hn
  by_cases hx : ∃ l r y, w = l ++ r ∧ 2 ≤ l.length ∧ 2 ≤ r.length ∧ V2Accepted d comps m f l y ∧ r ∈ F.pos
  · right
    obtain ⟨l, r, y, a, b, c, e, g⟩ := hx
    refine ⟨l, r, y, a, b, c, g, e, ?_⟩
    by_contra hy
    exact h2 ⟨l, r, y, a, b, c, accepted_lift e (not_lt.1 hy), g⟩
  · left
    refine ⟨⟨accepted_mono h h1, hx, h3, h4⟩, ?_⟩
    rintro ⟨l, r, y, a, b, c, e, g, ⟨k1, k2, k3, k4⟩, hlt, hi⟩
    refine h5 ⟨l, r, y, a, b, c, e, g, ⟨accepted_lift k1 (h1.1.trans hlt.le), ?_, k3, k4⟩, hlt, hi⟩
    rintro ⟨l', r', y', a', b', c', e', g'⟩
    exact k2 ⟨l', r', y', a', b', c', accepted_mono h e', g'⟩

/-- C103: `LRNounExtractor_v2.extract` twice on the same training with the same score threshold, the second time with a higher minimum frequency: a noun of the second extraction is one of
    the first, with the same numbers, or it is a word of at least two characters followed by a particle of at least two, where the word is not among the nouns of the second
    extraction. -/
theorem C103_v2 (p : V2.Params) (hpost : p.postprocessing = ["detaching_features".toList, "ignore_features".toList, "ignore_NJ".toList])
    (hl : 1 < p.maxLeft) (hr : 0 < p.maxRight) (s s1 : V2.State) (sents : List Str) (hne : sents ≠ []) (mf : Int) (ht : V2.trainWithSentences p s sents mf = .ok s1)
    (entLt : List Int → Rat → Bool) (enum enum' : Nat → List Str → List Str) (henum : ∀ i l, (enum i l).Perm l) (henum' : ∀ i l, (enum' i l).Perm l)
    (m f f' : Rat) (hf : f ≤ f') (reset reset' : Bool) (t1 t2 : V2.State) (nouns nouns' : Dict Str (Rat × Rat))
    (h1 : V2.extract p entLt enum s1 m f reset = .ok (t1, nouns)) (h2 : V2.extract p entLt enum' s1 m f' reset' = .ok (t2, nouns')) :
    ∀ w x, Dict.get? nouns' w = some x → Dict.get? nouns w = some x ∨
      ∃ l r, w = l ++ r ∧ 2 ≤ l.length ∧ 2 ≤ r.length ∧ r ∈ s.feats.pos ∧ Dict.get? nouns' l = none := by
  obtain ⟨c, s0, hc, hw, hpos, hsum, ht0, ht'⟩ := (C54_sentences p s sents mf).2 hne hl hr
  rw [ht] at ht'; cases ht'
  obtain ⟨g, hg, _, hnum, hfr, hlr⟩ := trained hw hpos hsum ht0
  have hb := counter_words hc
  obtain ⟨d, g1, comps, e1, e2, e3, e4, e5, e6⟩ := C54_nouns p hpost s s1 c hw hpos hsum ht0 entLt enum henum m f reset hb t1 nouns h1
  obtain ⟨d', g2, comps', f1, f2, f3, f4, f5, f6⟩ := C54_nouns p hpost s s1 c hw hpos hsum ht0 entLt enum' henum' m f' reset' hb t2 nouns' h2
  rw [hg] at e1; cases e1
  rw [hg] at f1; cases f1
  have hdp : d.Perm d' := C54_unique p s.feats c.counter m d d' e2 f2
  have hde : ∀ k, Dict.get? d k = Dict.get? d' k := by
    intro k
    apply Option.ext
    intro v
    rw [← Dict.mem_iff_get? e2.wf, ← Dict.mem_iff_get? f2.wf, hdp.mem_iff]
  have hcomps : ∀ k, Dict.get? comps k = Dict.get? comps' k := by
    by_cases hx : p.extractCompound = true
    · obtain ⟨C, hC, rfl⟩ := e3 hx
      obtain ⟨C', hC', rfl⟩ := f3 hx
      obtain ⟨D, D', q1, q2, _, _, q3⟩ := compounds_same (F := s.feats) hw hw hb (fun _ => rfl) hfr hfr hlr hlr (m := m) e2.wf f2.wf hde
      rw [hC] at q1; rw [hC'] at q2
      cases q1; cases q2
      exact q3
    · have hx : p.extractCompound = false := by simpa using hx
      rw [e4 hx, f4 hx]; exact fun _ => rfl
  intro w x hx
  rw [f6, ← noun_congr (fun _ => rfl) hde hcomps m f' w x] at hx
  rcases noun_mono hf hx with h | ⟨l, r, y, a, b, k, q, e, hy⟩
  · exact Or.inl ((e6 w x).2 h)
  · refine Or.inr ⟨l, r, a, b, k, q, ?_⟩
    rw [Option.eq_none_iff_forall_ne_some]
    intro z hz
    rw [f6, ← noun_congr (fun _ => rfl) hde hcomps m f' l z] at hz
    have hz := hz.1.1
    have : y = z := by
      rcases e.2 with a1 | ⟨a1, a2, a3⟩ <;> rcases hz.2 with b1 | ⟨b1, b2, b3⟩
      · rw [a1] at b1; exact Option.some.inj b1
      · exact absurd ((Dict.isSome_get?_iff _ _).1 (by rw [a1]; rfl)) b1
      · exact absurd ((Dict.isSome_get?_iff _ _).1 (by rw [b1]; rfl)) a1
      · rw [a2] at b2; exact Option.some.inj b2
    subst this
    exact absurd hz.1 (not_le.2 hy)

/-! ### findings -/

private def exP : V2.Params := { extractCompound := false, verbose := false }
private def exRun (F : V2.Features) (sents : List String) (m f : Rat) : List (String × Rat × Rat) :=
  match V2.trainWithSentences exP { feats := F } (sents.map (·.toList)) 1 with
  | .ok s => match V2.extract exP (fun _ _ => false) (fun _ l => l) s m f with
    | .ok (_, nouns) => nouns.map (fun e => (String.ofList e.1, e.2))
    | .error _ => []
  | .error _ => []

/-- C103, finding: a higher `min_noun_frequency` adds a noun: 학교에서 (학교 and the particle 에서) is removed as long as 학교 is a noun. -/
theorem C103_v2_violation :
    exRun { pos := ["는", "에", "를", "에서"].map (·.toList) } ["학교에 학교는 학교에서는 학교에서는 학교에서를 학교에서에"] (3/10) 1 = [("학교", 2, 1)] ∧
    exRun { pos := ["는", "에", "를", "에서"].map (·.toList) } ["학교에 학교는 학교에서는 학교에서는 학교에서를 학교에서에"] (3/10) 3 = [("학교에서", 4, 1)] := by
  refine ⟨by decide +kernel, by decide +kernel⟩

/-- C103, finding: so does a higher `min_noun_score`: 학교 gets back the eojeols of 학교도. -/
theorem C103_v2_score_violation :
    exRun { pos := ["는", "를", "도"].map (·.toList), neg := ["다".toList] } ["학교도는 학교도를 학교도다 학교도 학교도 학교는"] (3/10) 2 = [("학교도", 4, 1/3)] ∧
    exRun { pos := ["는", "를", "도"].map (·.toList), neg := ["다".toList] } ["학교도는 학교도를 학교도다 학교도 학교도 학교는"] (9/10) 2 = [("학교", 3, 1)] := by
  refine ⟨by decide +kernel, by decide +kernel⟩

example : exP.postprocessing = ["detaching_features".toList, "ignore_features".toList, "ignore_NJ".toList] ∧ 1 < exP.maxLeft ∧ 0 < exP.maxRight := ⟨rfl, by decide, by decide⟩

end Props
