import Verif.Props.C21_C23
import Verif.Props.C54Nouns
set_option linter.unusedVariables false
set_option linter.unusedSimpArgs false
namespace Props
open Py Nested

section
variable {p : V2.Params} {F : V2.Features} {c c' : Dict Str Int}

private theorem get_eq (hw : c.WF) (hw' : c'.WF) (hp : c.Perm c') : ∀ k, Dict.get? c k = Dict.get? c' k := by
  intro k
  apply Option.ext
  intro v
  rw [← Dict.mem_iff_get? hw, ← Dict.mem_iff_get? hw', hp.mem_iff]

private theorem split_eq (h : ∀ k, Dict.get? c k = Dict.get? c' k) : V2Split p c = V2Split p c' := by
  funext l r n
  unfold V2Split
  rw [h]

private theorem table_iff (h : ∀ k, Dict.get? c k = Dict.get? c' k) {m : Rat} {d : Dict Str (Rat × Rat)} (ht : V2Table p F c m d) : V2Table p F c' m d := by
  have hs := split_eq (p := p) h
  refine ⟨ht.wf, fun w => by rw [ht.cands, hs], fun w x hx => ?_⟩
  obtain ⟨row, hr, hpr⟩ := ht.entry w x hx
  refine ⟨row, ⟨hr.nodup, fun r n => ?_⟩, hpr⟩
  rw [hr.mem, hs]
  unfold V2Taken
  rw [hs]

private theorem tokenize_congr {sc sc' : Dict Str Rat} (h : ∀ k, Dict.get? sc k = Dict.get? sc' k) (n : Nat) (ds : Rat) (t : Str) :
    MaxScore.recursiveTokenize sc n ds t = MaxScore.recursiveTokenize sc' n ds t := by
  have hg : ∀ k, Dict.getD sc k ds = Dict.getD sc' k ds := fun k => by unfold Dict.getD; rw [h]
  unfold MaxScore.recursiveTokenize MaxScore.initCands MaxScore.candidates MaxScore.addLast MaxScore.addFirst
  simp only [hg]

private theorem decompose_congr {sc sc' : Dict Str Rat} (h : ∀ k, Dict.get? sc k = Dict.get? sc' k) (F : V2.Features) (w : Str) :
    V2.decomposeCompound { feats := F, decomposer := some sc } w = V2.decomposeCompound { feats := F, decomposer := some sc' } w := by
  unfold V2.decomposeCompound V2.compoundParts V2.decompose MaxScore.tokenizeSpans
  dsimp only
  have : MaxScore.recursiveTokenize sc 10 0 = MaxScore.recursiveTokenize sc' 10 0 := funext (fun t => tokenize_congr h _ _ t)
  rw [this]

private theorem getD_row (g : Nested Str) (l : Str) : Dict.getD (row g l) [] 0 = (get2 g l []).getD 0 := by
  unfold row get2 Dict.getD
  cases Dict.get? g l with
  | none => rfl
  | some t => rfl

private theorem keys_iff {g : Nested Str} (hg : WF2 g) (l : Str) : l ∈ Dict.keys g ↔ ∃ r n, get2 g l r = some n := by
  constructor
  · intro hl
    obtain ⟨⟨l', t⟩, hm, e0⟩ := List.mem_map.1 hl
    dsimp only at e0
    subst e0
    obtain ⟨⟨r, n⟩, hrm⟩ := List.exists_mem_of_ne_nil _ (hg.nonempty _ _ hm)
    refine ⟨r, n, ?_⟩
    unfold get2
    rw [Dict.get?_of_mem hg.outer hm]
    exact Dict.get?_of_mem (hg.inner _ _ hm) hrm
  · rintro ⟨r, n, h⟩
    rw [← Dict.isSome_get?_iff]
    unfold get2 at h
    cases hl : Dict.get? g l with
    | none => rw [hl] at h; cases h
    | some t => rfl

theorem compounds_same (hw : c.WF) (hw' : c'.WF) (hb : ∀ e ∈ Dict.keys c, ∀ ch ∈ e, isSpace ch = false)
    (h : ∀ k, Dict.get? c k = Dict.get? c' k) {g g' : LR.State} (hfr : V2.Fresh c g) (hfr' : V2.Fresh c' g')
    (hlr : g.lr = LR.lrOfCounter p.maxLeft p.maxRight c) (hlr' : g'.lr = LR.lrOfCounter p.maxLeft p.maxRight c')
    {m : Rat} {d d' : Dict Str (Rat × Rat)} (hd : d.WF) (hd' : d'.WF) (he : ∀ k, Dict.get? d k = Dict.get? d' k) :
    ∃ C C', V2.extractCompounds F g d m = .ok C ∧ V2.extractCompounds F g' d' m = .ok C' ∧ C.compounds.WF ∧ C'.compounds.WF ∧
      ∀ w, Dict.get? C.compounds w = Dict.get? C'.compounds w := by
  have hget : ∀ l r, get2 g.lr l r = get2 g'.lr l r := by
    intro l r
    apply Option.ext
    intro n
    rw [hlr, hlr', LR.get2_lrOfCounter _ _ hw, LR.get2_lrOfCounter _ _ hw', h]
  have hkey : ∀ l, l ∈ Dict.keys g.lr ↔ l ∈ Dict.keys g'.lr := by
    intro l
    rw [keys_iff hfr.cons.inv.lr, keys_iff hfr'.cons.inv.lr]
    simp only [hget]
  have hblank : ∀ l ∈ Dict.keys g.lr, splitWs l ≠ [] := by
    intro l hl
    obtain ⟨r, n, hg2⟩ := (keys_iff hfr.cons.inv.lr l).1 hl
    rw [hlr, LR.get2_lrOfCounter _ _ hw] at hg2
    have hk : l ++ r ∈ Dict.keys c := (Dict.isSome_get?_iff _ _).1 (by rw [hg2.2]; rfl)
    have hsp := hb _ hk
    exact v2_splitWs_ne_nil hg2.1.1 (fun ch hch => hsp ch (List.mem_append_left _ hch))
  obtain ⟨C, h1, h2, found, h3, h4, h5, h6, h7, _⟩ := (C49_compounds F g d hd m).2 g.lr hfr.origin hfr.cons.inv.lr.outer hblank
  obtain ⟨C', k1, k2, found', k3, k4, k5, k6, k7, _⟩ := (C49_compounds F g' d' hd' m).2 g'.lr hfr'.origin hfr'.cons.inv.lr.outer
    (fun l hl => hblank l ((hkey l).2 hl))
  have hnoun : ∀ w, IsNoun49 d m w ↔ IsNoun49 d' m w := by
    intro w; unfold IsNoun49; rw [he]
  have hdec : ∀ w, Dict.get? C.decomposer w = Dict.get? C'.decomposer w := by
    intro w
    apply Option.ext
    intro y
    rw [h2, k2, hnoun]
  have hfound : ∀ x, x ∈ found ↔ x ∈ found' := by
    rintro ⟨l, parts⟩
    rw [h4, k4, hkey, hnoun, decompose_congr hdec]
  have hperm : found.Perm found' := by
    rw [List.perm_ext_iff_of_nodup (List.Nodup.of_map _ h3) (List.Nodup.of_map _ k3)]
    exact hfound
  refine ⟨C, C', h1, k1, h5, k5, fun w => ?_⟩
  have hkeys : w ∈ Dict.keys C.compounds ↔ w ∈ Dict.keys C'.compounds := by
    rw [h6, k6]
    simp only [hfound]
  cases hx : Dict.get? C.compounds w with
  | none =>
    rw [Dict.get?_eq_none_iff, hkeys, ← Dict.get?_eq_none_iff] at hx
    exact hx.symm
  | some x =>
    cases hy : Dict.get? C'.compounds w with
    | none =>
      rw [Dict.get?_eq_none_iff, ← hkeys, ← Dict.get?_eq_none_iff, hx] at hy
      cases hy
    | some y =>
      obtain ⟨a1, a2, a3, a4⟩ := h7 w x hx
      obtain ⟨b1, b2, b3, b4⟩ := k7 w y hy
      have e2 : x.2 = y.2 := by
        rw [a1, b1]
        congr 1
        rw [((hperm.filter _).map _).sum_eq]
        congr 1
        apply List.map_congr_left
        intro lp _
        rw [getD_row, getD_row, hget]
      have e1 : x.1 = y.1 := by
        apply le_antisymm
        · rcases a4 with h0 | ⟨lp, hl, hf, q, hq, z, hz, e⟩
          · rw [h0]; exact b2
          · rw [e]; exact b3 lp ((hfound lp).1 hl) hf q hq z (by rw [← he]; exact hz)
        · rcases b4 with h0 | ⟨lp, hl, hf, q, hq, z, hz, e⟩
          · rw [h0]; exact a2
          · rw [e]; exact a3 lp ((hfound lp).2 hl) hf q hq z (by rw [he]; exact hz)
      rw [show x = y from Prod.ext e1 e2]

theorem noun_congr (h : ∀ k, Dict.get? c k = Dict.get? c' k) {d d' comps comps' : Dict Str (Rat × Rat)} (he : ∀ k, Dict.get? d k = Dict.get? d' k)
    (hc : ∀ k, Dict.get? comps k = Dict.get? comps' k) (m f : Rat) (w : Str) (x : Rat × Rat) :
    V2Noun p F c d comps m f w x ↔ V2Noun p F c' d' comps' m f w x := by
  have hk : ∀ w, w ∈ Dict.keys comps ↔ w ∈ Dict.keys comps' := fun w => by rw [← Dict.isSome_get?_iff, ← Dict.isSome_get?_iff, hc]
  have ha : V2Accepted d comps m f = V2Accepted d' comps' m f := by
    funext w x
    unfold V2Accepted
    rw [hc, hk, he]
  have hpr : V2Proper F d comps m f = V2Proper F d' comps' m f := by
    funext w x
    unfold V2Proper
    rw [ha]
  have hi : V2Inflected p c = V2Inflected p c' := by
    funext l
    unfold V2Inflected
    rw [split_eq h]
  unfold V2Noun
  rw [hpr, hi]
end

/-- C102: `LRNounExtractor_v2` trained with the same sentences in another order (without filtering on the way), its sets enumerated in another order: `extract` returns the same
    nouns with the same numbers, or raises the same error. -/
theorem C102_v2 (p : V2.Params) (hpost : p.postprocessing = ["detaching_features".toList, "ignore_features".toList, "ignore_NJ".toList])
    (hl : 1 < p.maxLeft) (hr : 0 < p.maxRight) (s : V2.State) (sents sents' : List Str) (hp : sents.Perm sents') (hne : sents ≠ []) (mf : Int)
    (hno : p.checkpoint ≤ 0 ∨ mf ≤ 1 ∨ (sents.length : Int) ≤ p.checkpoint) (entLt : List Int → Rat → Bool) (enum enum' : Nat → List Str → List Str)
    (henum : ∀ i l, (enum i l).Perm l) (henum' : ∀ i l, (enum' i l).Perm l) (m f : Rat) (reset reset' : Bool) :
    ∃ s1 s2, V2.trainWithSentences p s sents mf = .ok s1 ∧ V2.trainWithSentences p s sents' mf = .ok s2 ∧ s1.numEojeols = s2.numEojeols ∧
      ((∃ e, V2.extract p entLt enum s1 m f reset = .error e ∧ V2.extract p entLt enum' s2 m f reset' = .error e) ∨
       ∃ t1 t2 nouns nouns', V2.extract p entLt enum s1 m f reset = .ok (t1, nouns) ∧ V2.extract p entLt enum' s2 m f reset' = .ok (t2, nouns') ∧ nouns.Perm nouns') := by
  have hne' : sents' ≠ [] := fun h => hne (by subst h; exact List.perm_nil.1 hp)
  obtain ⟨c, s1, hc, hw, hpos, hsum, ht, ht'⟩ := (C54_sentences p s sents mf).2 hne hl hr
  obtain ⟨c', s2, kc, kw, kpos, ksum, kt, kt'⟩ := (C54_sentences p s sents' mf).2 hne' hl hr
  obtain ⟨_, hperm, hcs⟩ := C21_order (V2.counterParams p mf) sents sents' hno hp c c' hc kc
  have hget := get_eq hw kw hperm
  obtain ⟨g, hg, _, hnum, hfr, hlr⟩ := trained hw hpos hsum ht
  obtain ⟨g', hg', _, hnum', hfr', hlr'⟩ := trained kw kpos ksum kt
  have hn : s1.numEojeols = s2.numEojeols := by rw [hnum, hnum', ← hsum, ← ksum, hcs]
  refine ⟨s1, s2, ht', kt', hn, ?_⟩
  obtain ⟨t1, a1, a2, a3⟩ := C49_total p hl hr s sents hne mf entLt enum henum m f reset
  obtain ⟨t2, b1, b2, b3⟩ := C49_total p hl hr s sents' hne' mf entLt enum' henum' m f reset'
  rw [ht'] at a1; cases a1
  rw [kt'] at b1; cases b1
  by_cases hz : p.verbose = true ∧ s1.numEojeols = 0
  · exact Or.inl ⟨_, a2 hz, b2 (hn ▸ hz)⟩
  · right
    obtain ⟨t1, nouns, h1⟩ := a3 hz
    obtain ⟨t2, nouns', h2⟩ := b3 (hn ▸ hz)
    refine ⟨t1, t2, nouns, nouns', h1, h2, ?_⟩
    have hb := counter_words hc
    have hb' := counter_words kc
    obtain ⟨d, g1, comps, e1, e2, e3, e4, e5, e6⟩ := C54_nouns p hpost s s1 c hw hpos hsum ht entLt enum henum m f reset hb t1 nouns h1
    obtain ⟨d', g2, comps', f1, f2, f3, f4, f5, f6⟩ := C54_nouns p hpost s s2 c' kw kpos ksum kt entLt enum' henum' m f reset' hb' t2 nouns' h2
    rw [hg] at e1; cases e1
    rw [hg'] at f1; cases f1
    have hdp : d.Perm d' := C54_unique p s.feats c'.counter m d d' (table_iff hget e2) f2
    have hde : ∀ k, Dict.get? d k = Dict.get? d' k := by
      intro k
      apply Option.ext
      intro v
      rw [← Dict.mem_iff_get? e2.wf, ← Dict.mem_iff_get? f2.wf, hdp.mem_iff]
    have hcomps : ∀ k, Dict.get? comps k = Dict.get? comps' k := by
      by_cases hx : p.extractCompound = true
      · obtain ⟨C, hC, rfl⟩ := e3 hx
        obtain ⟨C', hC', rfl⟩ := f3 hx
        obtain ⟨D, D', q1, q2, _, _, q3⟩ := compounds_same (F := s.feats) hw kw hb hget hfr hfr' hlr hlr' (m := m) e2.wf f2.wf hde
        rw [hC] at q1; rw [hC'] at q2
        cases q1; cases q2
        exact q3
      · have hx : p.extractCompound = false := by simpa using hx
        rw [e4 hx, f4 hx]; exact fun _ => rfl
    apply Dict.perm_of_get? e5 f5
    intro k
    apply Option.ext
    intro x
    rw [e6, f6]
    exact noun_congr hget hde hcomps m f k x

/-! ### a concrete case: the sentences in two orders -/

private def exP : V2.Params := { verbose := false, extractCompound := true }
private def exRun (enum : Nat → List Str → List Str) (sents : List String) : List (String × Rat × Rat) :=
  match V2.trainWithSentences exP { feats := ⟨["는".toList, "를".toList, "에".toList], [], []⟩ } (sents.map (·.toList)) 1 with
  | .ok s => match V2.extract exP (fun _ _ => false) enum s with
    | .ok (_, nouns) => nouns.map (fun e => (String.ofList e.1, e.2))
    | .error _ => []
  | .error _ => []

example : exP.postprocessing = ["detaching_features".toList, "ignore_features".toList, "ignore_NJ".toList] ∧ 1 < exP.maxLeft ∧ 0 < exP.maxRight ∧ (1 : Int) ≤ 1 ∧
    exRun (fun _ l => l) ["학교는 학교를 학교에", "바다는 바다를 바다에 바다는"] = [("바다", 4, 1), ("학교", 3, 1)] ∧
    exRun (fun _ l => l) ["바다는 바다를 바다에 바다는", "학교는 학교를 학교에"] = [("바다", 4, 1), ("학교", 3, 1)] := by
  refine ⟨rfl, by decide, by decide, by decide, by decide +kernel, by decide +kernel⟩

end Props
