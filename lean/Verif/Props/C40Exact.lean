import Verif.Props.C40
/-! C40: exactly which candidates `EojeolTemplateMatcher.generate` returns, and in which order. -/
namespace Props
open Py PT

/-- the text read from left to right, each time the shortest word of the dictionary under `tag` that begins where the last one ended -/
inductive ShortestWords (d : State) (tag : Str) : Str → List Str → Prop
  | done : ShortestWords d tag [] []
  | step (w rest : Str) (ws : List Str) : w ≠ [] → d.wordIsTag w tag = true → (∀ u, u ≠ [] → u <+: w → u ≠ w → d.wordIsTag u tag = false) →
      ShortestWords d tag rest ws → ShortestWords d tag (w ++ rest) (w :: ws)

/-- words placed one after the other from offset `b` -/
def placed (tag : Str) : Nat → List Str → List LR
  | _, [] => []
  | b, w :: ws => ⟨w, some tag, [], none, b, b + w.length, b + w.length⟩ :: placed tag (b + w.length) ws

private theorem findWord_none (d : State) (tag token : Str) (b i fuel : Nat) (h : findWord d tag token b i fuel = none) (hf : i + fuel ≤ token.length + 1) :
    ∀ k, i ≤ k → k < i + fuel → ¬ (b = 0 ∧ k = token.length) → d.wordIsTag (slice token b k) tag = false := by
  induction fuel generalizing i with
  | zero => intro k h1 h2; omega
  | succ fuel ih =>
    rw [findWord] at h
    intro k h1 h2 h3
    split at h
    · rename_i h0; omega
    · split at h
      · cases h
      · rename_i hw
        by_cases e : k = i
        · rw [e]; simpa using hw
        · exact ih (i + 1) h (by omega) k (by omega) (by omega) h3

private theorem slice_prefix (token : Str) (b n : Nat) : slice token b (b + n) = (token.drop b).take n := by
  show (token.take (b + n)).drop b = _
  rw [List.drop_take]; congr 1; omega

/-- one round of the search: if the text from `b` on can be read as `w :: ws`, the search finds `w` (unless `w` is the whole text) -/
private theorem findWord_shortest (d : State) (tag token : Str) (b : Nat) (w rest : Str) (ht : token.drop b = w ++ rest) (hne : w ≠ [])
    (hw : d.wordIsTag w tag = true) (hmin : ∀ u, u ≠ [] → u <+: w → u ≠ w → d.wordIsTag u tag = false) (h0 : ¬ (b = 0 ∧ rest = [])) (hb : b < token.length) :
    findWord d tag token b (b + 1) (token.length - b) = some (b + w.length) := by
  have hl : token.length - b = w.length + rest.length := by rw [← List.length_drop, ht, List.length_append]
  have hwp : 0 < w.length := List.length_pos_iff.2 hne
  have hsw : slice token b (b + w.length) = w := by rw [slice_prefix, ht]; simp
  have hz : ¬ (b = 0 ∧ b + w.length = token.length) := by
    rintro ⟨h1, h2⟩
    exact h0 ⟨h1, List.length_eq_zero_iff.1 (by omega)⟩
  cases hf : findWord d tag token b (b + 1) (token.length - b) with
  | none =>
    have := findWord_none d tag token b _ _ hf (by omega) (b + w.length) (by omega) (by omega) hz
    rw [hsw, hw] at this; cases this
  | some j =>
    obtain ⟨h1, h2, h3, h4, h5⟩ := findWord_spec d tag token b _ _ j hf
    congr 1
    rcases Nat.lt_trichotomy j (b + w.length) with hj | hj | hj
    · obtain ⟨n, rfl⟩ : ∃ n, j = b + n := ⟨j - b, by omega⟩
      rw [slice_prefix, ht, List.take_append_of_le_length (by omega)] at h3
      have := hmin (w.take n) (fun h => by simp at h; rcases h with h | h; omega; exact hne h) (List.take_prefix _ _)
        (fun h => by have := congrArg List.length h; simp at this; omega)
      rw [this] at h3; cases h3
    · exact hj
    · have := h5 (b + w.length) (by omega) hj
      rw [hsw, hw] at this; cases this

private theorem decomposeGo_exact (d : State) (tag token : Str) (fuel b : Nat) (hb : b ≤ token.length) (h0 : 0 < b) (hf : token.length - b < fuel) (acc : List LR) :
    (∀ ws, ShortestWords d tag (token.drop b) ws → decomposeGo d tag token fuel b acc = acc ++ placed tag b ws) ∧
    ((¬ ∃ ws, ShortestWords d tag (token.drop b) ws) → decomposeGo d tag token fuel b acc = []) := by
  induction fuel generalizing b acc with
  | zero => omega
  | succ fuel ih =>
    rw [decomposeGo]
    by_cases hlt : b < token.length
    · rw [if_pos hlt]
      constructor
      · intro ws hs
        generalize ht : token.drop b = t at hs
        cases hs with
        | done => have := congrArg List.length ht; simp at this; omega
        | step w rest ws hne hw hmin hr =>
          rw [findWord_shortest d tag token b w rest ht hne hw hmin (by omega) hlt]
          dsimp only
          have hl : token.length - b = w.length + rest.length := by rw [← List.length_drop, ht, List.length_append]
          have hwp : 0 < w.length := List.length_pos_iff.2 hne
          have hd : token.drop (b + w.length) = rest := by rw [← List.drop_drop, ht]; simp
          have hsw : slice token b (b + w.length) = w := by rw [slice_prefix, ht]; simp
          rw [((ih (b + w.length) (by omega) (by omega) (by omega) _).1 ws (by rw [hd]; exact hr)), hsw]
          simp [placed]
      · intro hno
        cases hfw : findWord d tag token b (b + 1) (token.length - b) with
        | none => rfl
        | some i =>
          dsimp only
          obtain ⟨h1, h2, h3, h4, h5⟩ := findWord_spec d tag token b _ _ i hfw
          apply (ih i (by omega) (by omega) (by omega) _).2
          rintro ⟨ws, hws⟩
          obtain ⟨n, rfl⟩ : ∃ n, i = b + n := ⟨i - b, by omega⟩
          refine hno ⟨(token.drop b).take n :: ws, ?_⟩
          have hsplit : token.drop b = (token.drop b).take n ++ token.drop (b + n) := by rw [← List.drop_drop, List.take_append_drop]
          rw [show ShortestWords d tag (token.drop b) = ShortestWords d tag ((token.drop b).take n ++ token.drop (b + n)) by rw [← hsplit]]
          refine .step _ _ ws ?_ ?_ ?_ hws
          · intro h; have := congrArg List.length h; simp at this; omega
          · rw [← slice_prefix]; exact h3
          · intro u hu hp hne
            have hul : u.length < n := by
              have h1 := hp.length_le
              simp only [List.length_take] at h1
              rcases Nat.lt_or_ge u.length n with h | h
              · exact h
              · exact absurd (hp.eq_of_length (by simp only [List.length_take]; omega)) hne
            have hu' : u = slice token b (b + u.length) := by
              rw [slice_prefix]
              have := List.prefix_iff_eq_take.1 (hp.trans (List.take_prefix _ _))
              exact this
            rw [hu']
            exact h5 _ (by have := List.length_pos_iff.2 hu; omega) (by omega)
    · rw [if_neg hlt]
      have hbe : b = token.length := by omega
      subst hbe
      rw [List.drop_length]
      constructor
      · intro ws hs; generalize hn : ([] : Str) = t at hs; cases hs with
        | done => simp [placed]
        | step w rest ws hne => exact absurd (List.append_eq_nil_iff.1 hn.symm).1 hne
      · intro h; exact absurd ⟨[], .done⟩ h

/-- **C40** The compound candidate for a tag is the reading of the eojeol as shortest dictionary words, if there is one of two or more words; otherwise
    there is none. -/
theorem C40_compound (d : State) (eojeol tag : Str) :
    (∀ ws, ShortestWords d tag eojeol ws → 2 ≤ ws.length → decomposeCompound d eojeol tag = placed tag 0 ws) ∧
    ((¬ ∃ ws, ShortestWords d tag eojeol ws ∧ 2 ≤ ws.length) → decomposeCompound d eojeol tag = []) := by
  unfold decomposeCompound
  rw [decomposeGo]
  constructor
  · intro ws hs hl
    generalize ht : eojeol = t at hs
    cases hs with
    | done => simp at hl
    | step w rest ws hne hw hmin hr =>
      have hwp : 0 < w.length := List.length_pos_iff.2 hne
      have hrest : rest ≠ [] := by
        rintro rfl
        generalize hn : ([] : Str) = t at hr
        cases hr with
        | done => simp at hl
        | step u _ _ hu => exact hu (List.append_eq_nil_iff.1 hn.symm).1
      have hlen : eojeol.length = w.length + rest.length := by rw [ht, List.length_append]
      rw [← ht, if_pos (by omega), findWord_shortest d tag eojeol 0 w rest (by rw [List.drop_zero, ht]) hne hw hmin (fun h => hrest h.2) (by omega)]
      dsimp only
      have hd : eojeol.drop (0 + w.length) = rest := by rw [ht]; simp
      have hsw : slice eojeol 0 (0 + w.length) = w := by rw [slice_prefix, ht]; simp
      rw [(decomposeGo_exact d tag eojeol _ (0 + w.length) (by omega) (by omega) (by omega) _).1 ws (by rw [hd]; exact hr), hsw]
      simp [placed]
  · intro hno
    by_cases hlt : 0 < eojeol.length
    · rw [if_pos hlt]
      cases hfw : findWord d tag eojeol 0 (0 + 1) (eojeol.length - 0) with
      | none => rfl
      | some i =>
        dsimp only
        obtain ⟨h1, h2, h3, h4, h5⟩ := findWord_spec d tag eojeol 0 _ _ i hfw
        apply (decomposeGo_exact d tag eojeol _ i (by omega) (by omega) (by omega) _).2
        rintro ⟨ws, hws⟩
        refine hno ⟨eojeol.take i :: ws, ?_, ?_⟩
        · rw [show ShortestWords d tag eojeol = ShortestWords d tag (eojeol.take i ++ eojeol.drop i) by rw [List.take_append_drop]]
          have hsl : ∀ k, slice eojeol 0 k = eojeol.take k := fun k => by have := slice_prefix eojeol 0 k; simpa using this
          refine .step _ _ ws ?_ ?_ ?_ hws
          · intro h; have := congrArg List.length h; rw [List.length_take, List.length_nil] at this; omega
          · rw [← hsl]; exact h3
          · intro u hu hp hne
            have hul : u.length < i := by
              have h1 := hp.length_le
              simp only [List.length_take] at h1
              rcases Nat.lt_or_ge u.length i with h | h
              · exact h
              · exact absurd (hp.eq_of_length (by simp only [List.length_take]; omega)) hne
            rw [List.prefix_iff_eq_take.1 (hp.trans (List.take_prefix _ _)), ← hsl]
            exact h5 _ (by have := List.length_pos_iff.2 hu; omega) hul
        · cases ws with
          | cons _ _ => simp
          | nil =>
            exfalso
            have hi : ¬ i = eojeol.length := fun h => h4 ⟨rfl, h⟩
            simp only [Nat.sub_zero] at h2
            have : i < eojeol.length := by omega
            generalize ht : eojeol.drop i = t at hws
            cases hws
            have := congrArg List.length ht
            simp at this; omega
    · rw [if_neg hlt]

/-- **C40** Exactly the candidates, in the order in which they are listed: first the eojeol under each of its single tags in the order of the dictionary (or, if it has none,
    the eojeol without tag), then every split into two non-empty parts that fits an L-R template, shorter left parts first and the same split
    in the order of the templates, then the compound noun, then the compound adverb. -/
theorem C40_exact (g : EojeolMatcher) (hd : DReach g.dictionary) (eojeol : Str) :
    ∃ whole pairs noun adverb : List (List LR), g.generate eojeol = whole ++ pairs ++ noun ++ adverb ∧
      (whole = ((g.dictionary.getPos eojeol).filter (fun t => decide (t ∈ g.singleTags))).map (fun t => [⟨eojeol, some t, [], none, 0, eojeol.length, eojeol.length⟩]) ∧
          (∃ t ∈ g.singleTags, g.dictionary.wordIsTag eojeol t = true) ∨
        whole = [[⟨eojeol, none, [], none, 0, eojeol.length, eojeol.length⟩]] ∧ ∀ t ∈ g.singleTags, g.dictionary.wordIsTag eojeol t = false) ∧
      (∀ c, c ∈ pairs ↔ ∃ l r lt rt, l ≠ [] ∧ r ≠ [] ∧ eojeol = l ++ r ∧ (lt, rt) ∈ g.lrTemplates ∧ g.dictionary.wordIsTag l lt = true ∧
        g.dictionary.wordIsTag r rt = true ∧ c = [⟨l, some lt, r, some rt, 0, l.length, eojeol.length⟩]) ∧
      (∀ c c', [c, c'].Sublist pairs → ∀ w ∈ c, ∀ w' ∈ c', w.m ≤ w'.m ∧ (w.m = w'.m → ∀ t t' u u', w.lTag = some t → w.rTag = some u → w'.lTag = some t' → w'.rTag = some u' →
        [(t, u), (t', u')].Sublist g.lrTemplates)) ∧
      (∀ c, c ∈ noun ↔ ∃ ws, ShortestWords g.dictionary "Noun".toList eojeol ws ∧ 2 ≤ ws.length ∧ c = placed "Noun".toList 0 ws) ∧
      (∀ c, c ∈ adverb ↔ ∃ ws, ShortestWords g.dictionary "Adverb".toList eojeol ws ∧ 2 ≤ ws.length ∧ c = placed "Adverb".toList 0 ws) ∧
      noun.length ≤ 1 ∧ adverb.length ≤ 1 := by
  have hcomp : ∀ tag c, c ∈ (if decomposeCompound g.dictionary eojeol tag = [] then [] else [decomposeCompound g.dictionary eojeol tag]) ↔
      ∃ ws, ShortestWords g.dictionary tag eojeol ws ∧ 2 ≤ ws.length ∧ c = placed tag 0 ws := by
    intro tag c
    obtain ⟨h1, h2⟩ := C40_compound g.dictionary eojeol tag
    constructor
    · intro hc
      split at hc
      · cases hc
      · rename_i hne
        rw [List.mem_singleton] at hc
        by_cases hex : ∃ ws, ShortestWords g.dictionary tag eojeol ws ∧ 2 ≤ ws.length
        · obtain ⟨ws, hs, hl⟩ := hex
          exact ⟨ws, hs, hl, hc.trans (h1 ws hs hl)⟩
        · exact absurd (h2 hex) hne
    · rintro ⟨ws, hs, hl, rfl⟩
      rw [h1 ws hs hl, if_neg, List.mem_singleton]
      intro h
      cases ws with
      | nil => simp at hl
      | cons w ws => simp [placed] at h
  have hone : ∀ tag, (if decomposeCompound g.dictionary eojeol tag = [] then [] else [decomposeCompound g.dictionary eojeol tag]).length ≤ 1 := by
    intro tag; split <;> simp
  refine ⟨singles g eojeol, pairs g eojeol, _, _, rfl, ?_, ?_, ?_, hcomp _, hcomp _, hone _, hone _⟩
  · unfold singles
    dsimp only
    by_cases hex : ∃ t ∈ g.singleTags, g.dictionary.wordIsTag eojeol t = true
    · left
      refine ⟨if_neg ?_, hex⟩
      obtain ⟨t, ht, hw⟩ := hex
      rw [List.map_eq_nil_iff, List.filter_eq_nil_iff]
      intro h
      exact h t ((mem_getPos hd).2 hw) (by simpa using ht)
    · right
      have hno : ∀ t ∈ g.singleTags, g.dictionary.wordIsTag eojeol t = false := by
        intro t ht
        rw [Bool.eq_false_iff]
        exact fun h => hex ⟨t, ht, h⟩
      refine ⟨if_pos ?_, hno⟩
      rw [List.map_eq_nil_iff, List.filter_eq_nil_iff]
      intro t ht htt
      have := hno t (by simpa using htt)
      rw [(mem_getPos hd).1 ht] at this; cases this
  · intro c
    unfold pairs
    rw [List.mem_flatMap]
    constructor
    · rintro ⟨b, hb, hc⟩
      obtain ⟨t, ht, rfl⟩ := List.mem_map.1 hc
      obtain ⟨ht1, ht2⟩ := List.mem_filter.1 ht
      rw [Bool.and_eq_true] at ht2
      have hb' := List.mem_range.1 hb
      have hlen : (eojeol.take (b + 1)).length = b + 1 := by simp; omega
      refine ⟨_, _, t.1, t.2, ?_, ?_, (List.take_append_drop (b + 1) eojeol).symm, ht1, ht2.1, ht2.2, by rw [hlen]⟩
      · intro h; rw [h] at hlen; cases hlen
      · intro h; have := congrArg List.length h; simp at this; omega
    · rintro ⟨l, r, lt, rt, hl, hr, he, ht, h1, h2, rfl⟩
      have hl' : 0 < l.length := List.length_pos_iff.2 hl
      have hr' : 0 < r.length := List.length_pos_iff.2 hr
      have e1 : eojeol.take l.length = l := by rw [he]; simp
      have e2 : eojeol.drop l.length = r := by rw [he]; simp
      refine ⟨l.length - 1, List.mem_range.2 (by rw [he, List.length_append]; omega), ?_⟩
      rw [show l.length - 1 + 1 = l.length by omega, e1, e2]
      exact List.mem_map.2 ⟨(lt, rt), List.mem_filter.2 ⟨ht, by rw [h1, h2]; rfl⟩, rfl⟩
  · -- order
    have key : ∀ (bs : List Nat), bs.Pairwise (· < ·) → ∀ c c', [c, c'].Sublist (bs.flatMap (fun b0 =>
        (g.lrTemplates.filter (fun t => g.dictionary.wordIsTag (eojeol.take (b0 + 1)) t.1 && g.dictionary.wordIsTag (eojeol.drop (b0 + 1)) t.2)).map
          (fun t => [(⟨eojeol.take (b0 + 1), some t.1, eojeol.drop (b0 + 1), some t.2, 0, b0 + 1, eojeol.length⟩ : LR)]))) →
        ∀ w ∈ c, ∀ w' ∈ c', w.m ≤ w'.m ∧ (w.m = w'.m → ∀ t t' u u', w.lTag = some t → w.rTag = some u → w'.lTag = some t' → w'.rTag = some u' →
          [(t, u), (t', u')].Sublist g.lrTemplates) := by
      intro bs hp c c' hs w hw w' hw'
      induction bs with
      | nil => simp at hs
      | cons b bs ih =>
        rw [List.flatMap_cons, List.sublist_append_iff] at hs
        obtain ⟨l1, l2, he, hs1, hs2⟩ := hs
        rw [List.pairwise_cons] at hp
        match l1, he with
        | [], he => rw [List.nil_append] at he; rw [← he] at hs2; exact ih hp.2 hs2
        | [a], he =>
          rw [List.singleton_append] at he
          cases he
          have hc := hs1.subset (List.mem_singleton.2 rfl)
          have hc' := hs2.subset (List.mem_singleton.2 rfl)
          obtain ⟨t, _, rfl⟩ := List.mem_map.1 hc
          obtain ⟨b', hb', hc'⟩ := List.mem_flatMap.1 hc'
          obtain ⟨t', _, rfl⟩ := List.mem_map.1 hc'
          rw [List.mem_singleton] at hw hw'
          subst hw; subst hw'
          have := hp.1 b' hb'
          refine ⟨by dsimp only; omega, fun h => by dsimp only at h; omega⟩
        | [a, a'], he =>
          cases he
          obtain ⟨ts, hts, hmap⟩ := List.sublist_map_iff.1 hs1
          match ts, hmap with
          | [t, t'], hmap =>
            simp only [List.map_cons, List.map_nil, List.cons.injEq, and_true] at hmap
            obtain ⟨rfl, rfl⟩ := hmap
            rw [List.mem_singleton] at hw hw'
            subst hw; subst hw'
            refine ⟨Nat.le_refl _, ?_⟩
            rintro _ _ _ _ _ h1 h2 h3 h4
            cases h1; cases h2; cases h3; cases h4
            exact hts.trans List.filter_sublist
        | a :: a' :: a'' :: as, he => simp at he
    exact key _ List.pairwise_lt_range

/-- the hypotheses are met: with nouns 아이, 노래, 아이노래 and josa 는, 아이노래 is a noun and a compound of two -/
example : ∃ s : State, DReach s ∧ ShortestWords s "Noun".toList "아이노래".toList ["아이".toList, "노래".toList] ∧
    (EojeolMatcher.generate { dictionary := s } "아이노래".toList).length = 2 :=
  ⟨⟨[("Noun".toList, 0)], [.set ["아이".toList, "노래".toList, "아이노래".toList]], 4⟩,
    .create [("Noun".toList, ["아이".toList, "노래".toList, "아이노래".toList])] _ (by unfold Dict.WF; decide) rfl, by
      refine .step "아이".toList "노래".toList _ (by decide) (by decide +kernel) ?_ (.step "노래".toList [] _ (by decide) (by decide +kernel) ?_ .done)
      · intro u h1 h2 h3
        rw [List.prefix_iff_eq_take] at h2
        have hl : u.length = 1 := by
          have : u.length ≤ 2 := by rw [h2]; simp
          have h4 := List.length_pos_iff.2 h1
          rcases (by omega : u.length = 1 ∨ u.length = 2) with h | h
          · exact h
          · rw [h] at h2; exact absurd h2 h3
        rw [hl] at h2
        subst h2
        decide +kernel
      · intro u h1 h2 h3
        rw [List.prefix_iff_eq_take] at h2
        have hl : u.length = 1 := by
          have : u.length ≤ 2 := by rw [h2]; simp
          have h4 := List.length_pos_iff.2 h1
          rcases (by omega : u.length = 1 ∨ u.length = 2) with h | h
          · exact h
          · rw [h] at h2; exact absurd h2 h3
        rw [hl] at h2
        subst h2
        decide +kernel, by decide +kernel⟩
end Props
