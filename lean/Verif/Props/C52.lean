import Verif.Props.C14_C15
import Verif.Props.C18_C19
/-! C52: when NounMatchTokenizer outputs an eojeol as one noun. -/
namespace Props
open Py Spec NounTok MaxScore

/-- the score of a word in the noun table; unknown words have 0 -/
def nounScore (scores : Dict Str Rat) (w : Str) : Rat := (Dict.get? scores w).getD 0

/-- a tile that spans everything is the only one -/
private theorem tiles_whole {w : Str} {toks : List Tok} (h : Tiles w 0 w.length (toks.map Tok.span)) {t : Tok} (ht : t ∈ toks)
    (h0 : t.b = 0) (h1 : t.e = w.length) : toks = [t] := by
  cases toks with
  | nil => cases ht
  | cons a l =>
    rw [List.map_cons] at h
    have hp := (tiles_pairwise (token := w) (i := 0) (j := w.length) (l := a :: l) (by rw [List.map_cons]; exact h))
    have hat : t = a := by
      rcases List.mem_cons.1 ht with h | h
      · exact h
      · have h2 := ((List.pairwise_cons.1 hp.2).1 t h).2
        simp only [beginLe, decide_eq_false_iff_not] at h2
        omega
    subst hat
    obtain ⟨tw, tb, te, tsc, tl⟩ := t
    simp only at h0 h1
    subst h0
    obtain ⟨n, hn⟩ : ∃ n, w.length = n := ⟨_, rfl⟩
    rw [hn] at h h1
    cases h with
    | cons g1 g2 g3 g4 =>
      cases l with
      | nil => rfl
      | cons b l =>
        rw [List.map_cons] at g4
        obtain ⟨bw, bb, be, bsc, bl⟩ := b
        cases g4 with
        | cons k1 k2 k3 k4 => simp only at k1 k2; omega

private theorem match_of (scores : Dict Str Rat) (w : Str) (hw : w ≠ []) (hs : ∀ c ∈ w, isSpace c = false) (ts : List Tok)
    (ht : recursiveTokenize scores 10 0 w = .ok ts) :
    matchTokenize scores w false = .ok (((ts.filter (fun t => decide (t.score > 0))).map (·.word)).filter (fun w => w ≠ [])) ∧
    matchTokenize scores w true = .ok (((concatenate w (ts.filter (fun t => decide (t.score > 0)))).map (·.word)).filter (fun w => w ≠ [])) := by
  have h := word_self ⟨hw, hs⟩
  constructor <;>
  simp [matchTokenize, matchSpans, h.1, h.2, hw, matchEojeol, MaxScore.tokenizeSpans, ht, List.mapM_cons, bind, Except.bind, pure, Except.pure, getItem]

/-- C52: the tokenizer gives an eojeol back as one noun exactly if it has three to ten characters, a positive score, and no part of it
    (of two or more characters) scores higher. -/
theorem C52_whole_eojeol (scores : Dict Str Rat) (w : List Char) (hw : w ≠ []) (hs : ∀ c ∈ w, isSpace c = false) :
    matchTokenize scores w false = .ok [w] ↔
      3 ≤ w.length ∧ w.length ≤ 10 ∧ 0 < nounScore scores w ∧
      ∀ b e, b + 2 ≤ e → e ≤ w.length → nounScore scores ((w.take e).drop b) ≤ nounScore scores w := by
  have hfull : (w.take w.length).drop 0 = w := by simp
  constructor
  · intro h
    by_cases hl : w.length ≤ 2
    · rw [C52_short_nouns_lost_violated scores w hw hl hs false] at h
      cases h
    · obtain ⟨toks, h1, h2, h3, h4⟩ := recursive_spec scores 10 (by omega) 0 w (by omega)
      rw [(match_of scores w hw hs toks h1).1] at h
      have hm : w ∈ ((toks.filter (fun t => decide (t.score > 0))).map (·.word)).filter (fun w => w ≠ []) := by
        rw [Except.ok.inj h]; simp
      obtain ⟨t, ht, htw⟩ := List.mem_map.1 (List.mem_filter.1 hm).1
      obtain ⟨ht, hpos⟩ := List.mem_filter.1 ht
      have hpos : 0 < t.score := by simpa using hpos
      -- the token is the whole eojeol
      have hspan : t.b = 0 ∧ t.e = w.length := by
        have key : ∀ (i j : Nat) (l : List Tok), Tiles w i j (l.map Tok.span) → ∀ x ∈ l, x.b < x.e ∧ x.e ≤ w.length ∧ x.word = (w.take x.e).drop x.b := by
          intro i j l
          induction l generalizing i with
          | nil => intro _ x hx; cases hx
          | cons c l ih =>
            intro h x hx
            rw [List.map_cons] at h
            cases h with
            | cons k1 k2 k3 k4 =>
              rcases List.mem_cons.1 hx with rfl | hx
              · exact ⟨k1, k2, k3⟩
              · exact ih _ k4 x hx
        obtain ⟨k1, k2, k3⟩ := key _ _ _ h2 t ht
        rw [htw] at k3
        have := congrArg List.length k3
        rw [List.length_drop, List.length_take] at this
        omega
      -- some candidate is selected
      have hmin : ∃ r ∈ find (initCands scores 0 w (min 10 w.length) w.length), r.b < r.e ∧ r.e ≤ w.length := by
        let c : Tok := ⟨slice w 0 2, 0, 2, spanScore scores 0 w 0 2, 2⟩
        have hc : c ∈ initCands scores 0 w (min 10 w.length) w.length :=
          (eligible_iff scores 0 10 w c).2 ⟨⟨by simp [c], by simp [c], by show 2 ≤ w.length; omega⟩, rfl, rfl, rfl⟩
        have hne : findGo 101 (initCands scores 0 w (min 10 w.length) w.length) ≠ [] :=
          findGo_ne_nil 100 _ (List.ne_nil_of_mem hc)
        obtain ⟨r, hr⟩ := List.exists_mem_of_ne_nil _ hne
        have := ((eligible_iff scores 0 10 w r).1 (findGo_subset 101 _ r hr)).1
        exact ⟨r, mem_sorted.2 hr, by have := this.1; omega, this.2.2⟩
      have htR : t ∈ find (initCands scores 0 w (min 10 w.length) w.length) := by
        rcases h4 t ht with h | ⟨hdis, _⟩
        · exact h
        · obtain ⟨r, hr, q1, q2⟩ := hmin
          rcases hdis r hr with h | h <;> omega
      have htG := mem_sorted.1 htR
      obtain ⟨el, _, esc, elen⟩ := (eligible_iff scores 0 10 w t).1 (findGo_subset 101 _ t htG)
      have hsc : t.score = nounScore scores w := by
        rw [esc]; unfold spanScore nounScore; rw [hspan.1, hspan.2, hfull]
      refine ⟨by omega, by have := el.2.1; omega, by rw [← hsc]; exact hpos, ?_⟩
      intro b e hbe hel
      -- `t` is the head of the ranking
      have hP : (initCands scores 0 w (min 10 w.length) w.length).Pairwise (fun x y => rankLe x y = true) := pairwise_sorted rank_totalPre _
      let c : Tok := ⟨slice w b e, b, e, spanScore scores 0 w b e, e - b⟩
      have hc : c ∈ initCands scores 0 w (min 10 w.length) w.length :=
        (eligible_iff scores 0 10 w c).2 ⟨⟨hbe, by show e ≤ b + 10; have := el.2.1; omega, hel⟩, rfl, rfl, rfl⟩
      have hrank : rankLe t c = true := by
        have hdisj := findGo_disjoint 101 (initCands scores 0 w (min 10 w.length) w.length)
        cases hI : initCands scores 0 w (min 10 w.length) w.length with
        | nil => rw [hI] at hc; cases hc
        | cons d I =>
          rw [hI] at htG hdisj hc hP
          have hd : d ∈ initCands scores 0 w (min 10 w.length) w.length := by rw [hI]; simp
          have hdel := ((eligible_iff scores 0 10 w d).1 hd).1
          have htd : t = d := by
            rw [findGo] at htG hdisj
            rcases List.mem_cons.1 htG with h | h
            · exact h
            · have := (List.pairwise_cons.1 hdisj).1 t h
              have ho : overlaps d t = true := (overlaps_iff d t).2 ⟨by have := hdel.1; omega, by rw [hspan.2]; have := hdel.1; have := hdel.2.2; omega⟩
              rw [ho] at this; cases this
          subst htd
          rcases List.mem_cons.1 hc with h | h
          · rw [h]
            simp [rankLe]
          · exact (List.pairwise_cons.1 hP).1 c h
      have hr := (rank_iff scores 0 w t c ⟨esc, elen⟩ ⟨rfl, rfl⟩).1 hrank
      have hcs : spanScore scores 0 w c.b c.e = nounScore scores ((w.take e).drop b) := rfl
      unfold RanksBefore at hr
      rw [hcs, ← esc, hsc] at hr
      rcases hr with h | ⟨h, _⟩
      · exact le_of_lt h
      · exact le_of_eq h
  · rintro ⟨hl, hl', hpos, hmax⟩
    obtain ⟨toks, h1, t, ht, tb, te, tw, ts⟩ := C15_best_is_output scores 10 (by omega) 0 w (by omega) 0 w.length
      ⟨by omega, by omega, Nat.le_refl _⟩ (by
        intro b' e' hel
        have hle := hmax b' e' hel.1 hel.2.2
        have e1 : spanScore scores 0 w b' e' = nounScore scores ((w.take e').drop b') := rfl
        have e2 : spanScore scores 0 w 0 w.length = nounScore scores w := by unfold spanScore nounScore; rw [hfull]
        unfold RanksBefore
        rw [e1, e2]
        rcases lt_or_eq_of_le hle with h | h
        · exact Or.inl h
        · refine Or.inr ⟨h, ?_⟩
          have := hel.1; have := hel.2.2
          omega)
    obtain ⟨toks', h1', h2'⟩ := C14_tiles scores 10 (by omega) 0 w hw
    have : toks = toks' := Except.ok.inj (h1.symm.trans h1')
    subst this
    have hone := tiles_whole h2' ht tb te
    subst hone
    rw [(match_of scores w hw hs _ h1).1]
    have hsc : 0 < t.score := by
      rw [ts]; unfold spanScore; rw [hfull]; exact hpos
    rw [hfull] at tw
    simp [hsc, tw, hw]

example : matchTokenize [("데이터".toList, 1), ("데이".toList, 1), ("이터".toList, 9/10)] "데이터".toList false = .ok ["데이터".toList] ∧
    matchTokenize [("데이터".toList, 1), ("데이".toList, 11/10)] "데이터".toList false = .ok ["데이".toList] := by decide +kernel

end Props
