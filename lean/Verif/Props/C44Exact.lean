import Verif.Props.C44
import Verif.Props.C57
import Verif.Props.C41_C43
/-! C44, exactly: the pairs `lemmatize` returns are the covered ones, no more and no less. -/
set_option linter.unusedVariables false
namespace Props
open Py Hangle Spec Lemma

private theorem runLem_mem (x : LCtx) (fs : List (LCtx → PyM Cand)) (b : Cand) (h : runLem x fs = .ok b) (q : Str × Str) (hq : q ∈ b) :
    ∃ f ∈ fs, ∃ a, f x = .ok a ∧ q ∈ a := by
  induction fs generalizing b with
  | nil => cases h; cases hq
  | cons g gs ih =>
    unfold runLem at h
    split at h
    · cases h
    · rename_i a' ha'
      split at h
      · cases h
      · rename_i b' hb'
        cases h
        rcases List.mem_append.1 hq with hq | hq
        · exact ⟨g, by simp, a', ha', hq⟩
        · obtain ⟨f, hf, a, ha, hm⟩ := ih b' hb' hq
          exact ⟨f, List.mem_cons_of_mem _ hf, a, ha, hm⟩

private theorem good_last {X : LCtx} (g : X.Good) : IsSyllableOf X.last X.ll.1 X.ll.2.1 X.ll.2.2 := by
  obtain ⟨ll, h1, _, h3⟩ := decomposeList_syllable (g.syl X.last (by rw [g.l]; simp))
  rw [g.last] at h1
  rw [Except.ok.inj h1]
  exact isSyllableOf_iff.2 h3

private theorem good_head {X : LCtx} (g : X.Good) {p q : Char} (h : (rf0 X = some p) ∨ (X.rFirst = q ∧ q ≠ ' ')) :
    ∃ e es d, X.r = e :: es ∧ X.rf = some d ∧ IsSyllableOf e d.1 d.2.1 d.2.2 ∧ compose d.1 d.2.1 ' ' = .ok X.rFirst := by
  rcases g.r with ⟨_, h2, h3⟩ | ⟨e, es, d, h1, h2, h3, h4, _, h5⟩
  · rcases h with h | ⟨h, h'⟩
    · unfold rf0 at h; rw [h2] at h; cases h
    · rw [h3] at h; exact absurd h.symm h'
  · refine ⟨e, es, d, h1, h2, ?_, h5⟩
    obtain ⟨d', h6, _, h7⟩ := decomposeList_syllable h3
    rw [h4] at h6; cases h6
    exact isSyllableOf_iff.2 h7

private theorem if_mem {P : Prop} [Decidable P] {m : PyM Cand} {a : Cand} {q : Str × Str} (h : (if P then m else .ok []) = .ok a) (hq : q ∈ a) :
    P ∧ m = .ok a := by
  by_cases hP : P
  · rw [if_pos hP] at h; exact ⟨hP, h⟩
  · rw [if_neg hP] at h; cases h; cases hq

private theorem lemVowel_mem {X : LCtx} {v w : Char} {a : Cand} {q : Str × Str} (h : lemVowel X v w = .ok a) (hq : q ∈ a) :
    ∃ c e, IsSyllableOf c X.ll.1 v ' ' ∧ IsSyllableOf e 'ㅇ' w X.ll.2.2 ∧ q = (X.front ++ [c], e :: X.r) := by
  unfold lemVowel at h
  split at h
  · cases h
  · rename_i c hc
    obtain ⟨e, he, rfl⟩ := map_ok h
    exact ⟨c, e, isSyllableOf_iff.2 hc, isSyllableOf_iff.2 he, List.mem_singleton.1 hq⟩

private theorem head_eq {front : Str} {a b : Char} {r t : Str} (h : front ++ a :: r = front ++ b :: t) : a = b ∧ r = t := by
  have := List.append_cancel_left h
  cases this; exact ⟨rfl, rfl⟩

/-- a stem in ㅂ never loses it except before a vowel, and then the ending stays as it is unless its vowel is ㅏ or ㅓ -/
private theorem b_forms {front : Str} {c c' x y e i v w : Char} {es r : Str} {forms : List Str} (hc : IsSyllableOf c x y 'ㅂ')
    (hc' : IsSyllableOf c' x y ' ') (he : IsSyllableOf e i v w) (h : conjugate (front ++ [c]) (e :: es) = .ok forms)
    (hw : front ++ c' :: r ∈ forms) : i = 'ㅇ' ∧ (v ≠ 'ㅏ' → v ≠ 'ㅓ' → r = e :: es) := by
  have hcc : c' ≠ c := by
    rintro rfl
    have := (isSyllableOf_decompose hc).symm.trans (isSyllableOf_decompose hc')
    exact absurd (congrArg (fun p : Jamo => p.2.2) (Except.ok.inj this)) (show ¬ ('ㅂ' = ' ') by decide)
  have hk : ∀ k : Char, ∀ d : Jamo, decomposeList k = .ok d → d.2.2 ≠ 'ㅂ' → c ≠ k := by
    rintro k d hd hn rfl
    rw [isSyllableOf_decompose hc] at hd
    cases hd; exact hn rfl
  have k1 := hk '르' ('ㄹ', 'ㅡ', ' ') (by decide +kernel) (by decide)
  have k2 := hk '벗' ('ㅂ', 'ㅓ', 'ㅅ') (by decide +kernel) (by decide)
  have k3 := hk '푸' ('ㅍ', 'ㅜ', ' ') (by decide +kernel) (by decide)
  have k4 := hk '으' ('ㅇ', 'ㅡ', ' ') (by decide +kernel) (by decide)
  have k5 := hk '오' ('ㅇ', 'ㅗ', ' ') (by decide +kernel) (by decide)
  have k6 := hk '우' ('ㅇ', 'ㅜ', ' ') (by decide +kernel) (by decide)
  have k7 := hk '가' ('ㄱ', 'ㅏ', ' ') (by decide +kernel) (by decide)
  have k8 := hk '하' ('ㅎ', 'ㅏ', ' ') (by decide +kernel) (by decide)
  have zz : ∀ z : Char, z ≠ 'ㅂ' → ¬ 'ㅂ' = z := fun z h e => h e.symm
  rw [C57_forms front c x y 'ㅂ' e i v w es hc he forms h] at hw
  generalize hs : front ++ c' :: r = s at hw
  rcases hw with hw | ⟨_, hw⟩
  · cases hw with
    | da => exact absurd (head_eq hs).1 hcc
    | d _ h1 => exact absurd h1 (by decide)
    | dKeep h1 => exact absurd h1 (by decide)
    | reu p q q0 q1 q2 q' r' h1 => exact absurd h1 k1
    | bWo _ _ _ h2 h3 => exact ⟨h2, fun a b => absurd h3 (fun h3 => h3.elim b (fun h => a h.1))⟩
    | bWa _ _ _ h2 h3 => exact ⟨h2, fun a b => absurd h3 a⟩
    | bDrop _ _ h2 => exact ⟨h2, fun _ _ => (head_eq hs).2⟩
    | s _ h1 => exact absurd h1 (by decide)
    | beot _ h2 => exact absurd h2 k2
    | pu h1 => exact absurd h1 k3
    | u _ _ h2 => exact absurd h2 (by decide)
    | o _ _ h2 => exact absurd h2 (by decide)
    | euDrop h1 => exact absurd h1 k4
    | eu _ _ h2 => exact absurd h2 (by decide)
    | raO _ _ h3 => exact absurd h3 k5
    | raU _ _ h3 => exact absurd h3 k6
    | raGa _ _ h3 => exact absurd h3 k7
    | raEo => exact absurd (head_eq hs).1 hcc
    | raA => exact absurd (head_eq hs).1 hcc
    | reo _ h1 => exact absurd h1 k1
    | yeo _ h1 => exact absurd h1 k8
    | hae _ h1 => exact absurd h1 k8
    | hDrop _ h1 => exact absurd h1 (by decide)
    | hKeep => exact absurd (head_eq hs).1 hcc
    | hMergeA _ h1 => exact absurd h1 (by decide)
    | hMergeE _ h1 => exact absurd h1 (by decide)
    | hNe h1 => exact absurd h1 (by decide)
    | iYeo _ _ h2 => exact absurd h2 (by decide)
    | iKeep _ h2 => exact absurd h2 (by decide)
  · cases hw with
    | merge _ h1 => exact absurd h1 (by decide)
    | join => exact absurd (head_eq hs).1 hcc

/-- 푸 with an ending in ㅓ becomes 퍼, without the final of the ending's first syllable -/
private theorem pu_forms {front : Str} {c' e w : Char} {es r : Str} {forms : List Str} (hc' : IsSyllableOf c' 'ㅍ' 'ㅓ' w)
    (he : IsSyllableOf e 'ㅇ' 'ㅓ' w) (h : conjugate (front ++ ['푸']) (e :: es) = .ok forms)
    (hw : front ++ c' :: r ∈ forms) : c' = '퍼' := by
  have hc : IsSyllableOf '푸' 'ㅍ' 'ㅜ' ' ' := ⟨17, 13, 0, by decide, by decide⟩
  have hcc : c' ≠ '푸' := by
    rintro rfl
    have := (isSyllableOf_decompose hc).symm.trans (isSyllableOf_decompose hc')
    exact absurd (congrArg (fun p : Jamo => p.2.1) (Except.ok.inj this)) (show ¬ ('ㅜ' = 'ㅓ') by decide)
  rw [C57_forms front '푸' 'ㅍ' 'ㅜ' ' ' e 'ㅇ' 'ㅓ' w es hc he forms h] at hw
  generalize hs : front ++ c' :: r = s at hw
  rcases hw with hw | ⟨_, hw⟩
  · cases hw with
    | da => exact absurd (head_eq hs).1 hcc
    | d _ h1 => exact absurd h1 (by decide)
    | dKeep h1 => exact absurd h1 (by decide)
    | reu p q q0 q1 q2 q' r' h1 => exact absurd h1 (by decide)
    | bWo _ _ h1 => exact absurd h1 (by decide)
    | bWa _ _ h1 => exact absurd h1 (by decide)
    | bDrop _ h1 => exact absurd h1 (by decide)
    | s _ h1 => exact absurd h1 (by decide)
    | beot _ h2 => exact absurd h2 (by decide)
    | pu h1 => exact (head_eq hs).1
    | u _ _ _ h3 => exact absurd rfl h3
    | o _ h1 => exact absurd h1 (by decide)
    | euDrop h1 => exact absurd h1 (by decide)
    | eu _ h1 => exact absurd h1 (by decide)
    | raO _ _ h3 => exact absurd h3 (by decide)
    | raU _ _ h3 => exact absurd h3 (by decide)
    | raGa _ _ h3 => exact absurd h3 (by decide)
    | raEo => exact absurd (head_eq hs).1 hcc
    | raA => exact absurd (head_eq hs).1 hcc
    | reo _ h1 => exact absurd h1 (by decide)
    | yeo _ h1 => exact absurd h1 (by decide)
    | hae _ h1 => exact absurd h1 (by decide)
    | hDrop _ h1 => exact absurd h1 (by decide)
    | hKeep => exact absurd (head_eq hs).1 hcc
    | hMergeA _ h1 => exact absurd h1 (by decide)
    | hMergeE _ h1 => exact absurd h1 (by decide)
    | hNe h1 => exact absurd h1 (by decide)
    | iYeo _ h1 => exact absurd h1 (by decide)
    | iKeep h1 => exact absurd h1 (by decide)
  · cases hw with
    | merge _ _ _ h3 => exact absurd h3 (by decide)
    | join => exact absurd (head_eq hs).1 hcc

private theorem letters_of {c : Char} {a b d : Char} {k : Jamo} (h : compose a b d = .ok c) (hk : decomposeList c = .ok k) : a = k.1 ∧ b = k.2.1 ∧ d = k.2.2 := by
  have := (compose_inv h).2.2
  rw [hk] at this
  have := Except.ok.inj this
  exact ⟨congrArg (·.1) this.symm, congrArg (·.2.1) this.symm, congrArg (·.2.2) this.symm⟩

/-- every candidate of a rule that passes the conjugation test is covered -/
private theorem rule_covered {X : LCtx} (g : X.Good) (hr : ∀ c ∈ X.r, Syllable c) {f : LCtx → PyM Cand} (hf : f ∈ lemRules) {a : Cand}
    (ha : f X = .ok a) {stem ending : Str} (hm : (stem, ending) ∈ a) (hne : ending ≠ []) {forms : List Str}
    (h : conjugate stem ending = .ok forms) (hw : X.l ++ X.r ∈ forms) : Covered stem ending (X.l ++ X.r) := by
  have hlast := good_last g
  have hl : X.l ++ X.r = X.front ++ X.last :: X.r := by rw [g.l]; simp
  rw [hl] at hw ⊢
  simp only [lemRules, List.mem_cons, List.not_mem_nil, or_false] at hf
  rcases hf with rfl | rfl | rfl | rfl | rfl | rfl | rfl | rfl | rfl | rfl | rfl | rfl | rfl | rfl | rfl | rfl | rfl
  · -- ㄷ
    unfold lemD at ha
    obtain ⟨⟨h1, h2⟩, ha⟩ := if_mem ha hm
    obtain ⟨c, hc, rfl⟩ := map_ok ha
    cases List.mem_singleton.1 hm
    obtain ⟨e, es, d, h3, h4, h5, _⟩ := good_head (q := 'x') g (.inl h2)
    have h6 : d.1 = 'ㅇ' := by simpa [rf0, h4] using h2
    rw [h1] at hlast; rw [h6] at h5
    rw [h3]
    exact .d X.front c X.last _ _ e es _ _ (isSyllableOf_iff.2 hc) hlast h5
  · -- 르
    unfold lemReu at ha
    obtain ⟨⟨h1, h2⟩, ha⟩ := if_mem ha hm
    obtain ⟨e, es, d, h3, h4, h5, h6⟩ := good_head (p := 'x') (q := X.rFirst) g (.inr ⟨rfl, by rcases h2 with h | h <;> rw [h] <;> decide⟩)
    rw [h4] at ha
    dsimp only at ha
    cases hc : compose X.ll.1 X.ll.2.1 ' ' with
    | error e => rw [hc] at ha; cases ha
    | ok c =>
      rw [hc] at ha; dsimp only at ha
      obtain ⟨e', he', rfl⟩ := map_ok ha
      cases List.mem_singleton.1 hm
      have h7 : d.1 = 'ㄹ' ∧ (d.2.1 = 'ㅏ' ∨ d.2.1 = 'ㅓ') := by
        rcases h2 with h | h <;> rw [h] at h6
        · have := letters_of h6 (show decomposeList '러' = .ok ('ㄹ', 'ㅓ', ' ') by decide +kernel)
          exact ⟨this.1, .inr this.2.1⟩
        · have := letters_of h6 (show decomposeList '라' = .ok ('ㄹ', 'ㅏ', ' ') by decide +kernel)
          exact ⟨this.1, .inl this.2.1⟩
      rw [h1] at hlast; rw [h7.1] at h5
      rw [h3]
      exact .reu X.front c X.last _ _ e' e es _ _ (isSyllableOf_iff.2 hc) hlast (isSyllableOf_iff.2 he') h5 h7.2
  · -- ㅂ
    unfold lemB at ha
    obtain ⟨h1, ha⟩ := if_mem ha hm
    rw [h1] at hlast
    cases hc : compose X.ll.1 X.ll.2.1 'ㅂ' with
    | error e => rw [hc] at ha; cases ha
    | ok c =>
      rw [hc] at ha; dsimp only at ha
      obtain ⟨r', hr', rfl⟩ := map_ok ha
      cases List.mem_singleton.1 hm
      have hc' := isSyllableOf_iff.2 hc
      unfold bCanon at hr'
      by_cases hwo : X.rFirst = '워' ∨ X.rFirst = '와'
      · rw [if_pos hwo] at hr'
        obtain ⟨e, es, d, h3, h4, h5, h6⟩ := good_head (p := 'x') (q := X.rFirst) g (.inr ⟨rfl, by rcases hwo with h | h <;> rw [h] <;> decide⟩)
        obtain ⟨e', he', rfl⟩ := map_ok hr'
        have hrf2 : (rf2 X).getD ' ' = d.2.2 := by simp [rf2, h4]
        rw [hrf2] at he'
        have htail : tail1 X.r = es := by rw [h3]; rfl
        rw [htail]
        rw [h3]
        rcases hwo with h7 | h7
        · rw [h7] at h6 he'
          rw [if_neg (by decide)] at he'
          have := letters_of h6 (show decomposeList '워' = .ok ('ㅇ', 'ㅝ', ' ') by decide +kernel)
          dsimp only at this
          rw [this.1, this.2.1] at h5
          exact .bVowel X.front c X.last _ _ e' e es 'ㅓ' 'ㅝ' d.2.2 hc' hlast (isSyllableOf_iff.2 he') h5 (.inl ⟨rfl, rfl⟩)
        · rw [h7] at h6 he'
          rw [if_pos rfl] at he'
          have := letters_of h6 (show decomposeList '와' = .ok ('ㅇ', 'ㅘ', ' ') by decide +kernel)
          dsimp only at this
          rw [this.1, this.2.1] at h5
          exact .bVowel X.front c X.last _ _ e' e es 'ㅏ' 'ㅘ' d.2.2 hc' hlast (isSyllableOf_iff.2 he') h5 (.inr ⟨rfl, rfl⟩)
      · rw [if_neg hwo] at hr'
        by_cases hry : (tail1 X.r).head? = some '려'
        · rw [if_pos hry] at hr'
          obtain ⟨e', he', rfl⟩ := map_ok hr'
          have he'' := isSyllableOf_iff.2 he'
          have := (b_forms hc' hlast he'' h hw).2 (by decide) (by decide)
          rw [this]
          exact .bDrop X.front c X.last _ _ e' _ 'ㅜ' _ hc' hlast he'' ⟨by decide, by decide⟩ (fun _ => rfl)
        · rw [if_neg hry] at hr'
          cases hr'
          cases hXr : X.r with
          | nil => rw [hXr] at hne; exact absurd rfl hne
          | cons e es =>
            obtain ⟨d, hd1, _, hd2⟩ := decomposeList_syllable (hr e (by rw [hXr]; simp))
            have he := isSyllableOf_iff.2 hd2
            have hi := (b_forms hc' hlast he (by rw [hXr] at h; exact h) hw).1
            have hrf := good_rf g hXr hd1
            rw [hi] at he
            refine .bDrop X.front c X.last _ _ e es _ _ hc' hlast he ⟨?_, ?_⟩ ?_
            · intro hv
              apply hwo
              left
              have := hrf.2
              rw [hi, hv] at this
              exact (Except.ok.inj ((show compose 'ㅇ' 'ㅝ' ' ' = .ok '워' by decide +kernel).symm.trans this)).symm
            · intro hv
              apply hwo
              right
              have := hrf.2
              rw [hi, hv] at this
              exact (Except.ok.inj ((show compose 'ㅇ' 'ㅘ' ' ' = .ok '와' by decide +kernel).symm.trans this)).symm
            · intro hh
              exact absurd (by rw [hXr]; exact hh) hry
  iterate 4
    · unfold lemJong at ha
      obtain ⟨h1, ha⟩ := if_mem ha hm
      unfold lemJongOne at ha
      split at ha
      · cases ha; cases hm
      · rename_i hz
        obtain ⟨c, hc, rfl⟩ := map_ok ha
        cases List.mem_singleton.1 hm
        exact .attach X.front c X.last _ _ _ X.ll.2.2 X.r (by simpa using h1) (isSyllableOf_iff.2 hc) (by simp) (fun e => hz e.symm) hlast
  · -- ㅅ
    unfold lemS at ha
    obtain ⟨⟨⟨h1, _⟩, h2⟩, ha⟩ := if_mem ha hm
    obtain ⟨c, hc, rfl⟩ := map_ok ha
    cases List.mem_singleton.1 hm
    obtain ⟨e, es, d, h3, h4, h5, _⟩ := good_head (q := 'x') g (.inl h2)
    have h6 : d.1 = 'ㅇ' := by simpa [rf0, h4] using h2
    rw [h1] at hlast; rw [h6] at h5
    rw [h3]
    exact .s X.front c X.last _ _ e es _ _ (isSyllableOf_iff.2 hc) hlast h5
  · -- 푸
    unfold lemPeo at ha
    obtain ⟨h1, ha⟩ := if_mem ha hm
    obtain ⟨e, he, rfl⟩ := map_ok ha
    cases List.mem_singleton.1 hm
    have hl := g.lOpen
    rw [h1] at hl
    have h2 := letters_of hl (show decomposeList '퍼' = .ok ('ㅍ', 'ㅓ', ' ') by decide +kernel)
    dsimp only at h2
    rw [h2.1, h2.2.1] at hlast
    rw [h2.2.1] at he
    have h3 := pu_forms hlast (isSyllableOf_iff.2 he) h hw
    rw [h3] at hlast ⊢
    have h4 := letters_of (isSyllableOf_iff.1 hlast) (show decomposeList '퍼' = .ok ('ㅍ', 'ㅓ', ' ') by decide +kernel)
    dsimp only at h4
    rw [h4.2.2] at he
    have : e = '어' := (Except.ok.inj ((show compose 'ㅇ' 'ㅓ' ' ' = .ok '어' by decide +kernel).symm.trans he)).symm
    rw [this]
    exact .peo X.front X.r
  · -- ㅜ
    unfold lemU at ha
    obtain ⟨h1, ha⟩ := if_mem ha hm
    obtain ⟨c, e, hc, he, hq⟩ := lemVowel_mem ha hm
    cases hq
    rw [h1] at hlast
    exact .u X.front c X.last _ e X.r _ hc hlast he
  · unfold lemO at ha
    obtain ⟨h1, ha⟩ := if_mem ha hm
    obtain ⟨c, e, hc, he, hq⟩ := lemVowel_mem ha hm
    cases hq
    rw [h1] at hlast
    exact .o X.front c X.last _ e X.r _ hc hlast he
  · unfold lemEu at ha
    obtain ⟨h1, ha⟩ := if_mem ha hm
    obtain ⟨c, e, hc, he, hq⟩ := lemVowel_mem ha hm
    cases hq
    exact .eu X.front c X.last _ e X.r _ _ h1.symm hc hlast he
  · unfold lemEu2 at ha
    obtain ⟨⟨h1, h2, h3⟩, ha⟩ := if_mem ha hm
    cases ha
    cases List.mem_singleton.1 hm
    obtain ⟨e, es, d, h4, h5, h6, _⟩ := good_head (q := 'x') g (.inl h2)
    have h7 : d.1 = 'ㅇ' := by simpa [rf0, h5] using h2
    have h8 : d.2.1 = 'ㅏ' ∨ d.2.1 = 'ㅓ' := by simpa [rf1, h5] using h3
    rw [h1] at hlast; rw [h7] at h6
    rw [h4, g.l]
    have := Covered.euOpen X.front X.last _ _ e es _ _ h8 hlast h6
    simpa using this
  · unfold lemHa at ha
    obtain ⟨⟨h1, h2⟩, ha⟩ := if_mem ha hm
    obtain ⟨e, he, rfl⟩ := map_ok ha
    cases List.mem_singleton.1 hm
    rw [h1, h2] at hlast
    exact .ha X.front X.last e X.r _ hlast (isSyllableOf_iff.2 he)
  · unfold lemHDrop at ha
    obtain ⟨⟨h1, h2⟩, ha⟩ := if_mem ha hm
    obtain ⟨c, hc, rfl⟩ := map_ok ha
    cases List.mem_singleton.1 hm
    by_cases hz : X.ll.2.2 = ' '
    · rw [if_pos hz] at *
      rw [hz] at hlast
      exact .hDrop X.front c X.last _ _ X.r h2 (isSyllableOf_iff.2 hc) hlast hr
    · rw [if_neg hz]
      refine .attach X.front c X.last _ _ 'ㅎ' X.ll.2.2 X.r ?_ (isSyllableOf_iff.2 hc) (by simp) ?_ hlast
      · unfold hJong at h1
        rcases h1 with h1 | h1 | h1 | h1 | h1
        · exact absurd h1 hz
        all_goals rw [h1]; simp
      · unfold hJong at h1
        rcases h1 with h1 | h1 | h1 | h1 | h1 <;> rw [h1] <;> decide
  · unfold lemHMerge at ha
    obtain ⟨⟨h1, h2⟩, ha⟩ := if_mem ha hm
    cases hst : hMergeStem X with
    | error e => rw [hst] at ha; cases ha
    | ok st =>
      rw [hst] at ha; dsimp only at ha
      obtain ⟨e, he, rfl⟩ := map_ok ha
      cases List.mem_singleton.1 hm
      have he' := isSyllableOf_iff.2 he
      have hv : ((if X.ll.2.1 = 'ㅔ' then 'ㅓ' else 'ㅏ') = 'ㅏ' ∧ X.ll.2.1 = 'ㅐ') ∨ ((if X.ll.2.1 = 'ㅔ' then 'ㅓ' else 'ㅏ') = 'ㅓ' ∧ X.ll.2.1 = 'ㅔ') := by
        rcases h2 with h2 | h2 <;> rw [h2] <;> simp
      have hz : X.ll.2.2 ∈ [' ', 'ㄴ', 'ㄹ', 'ㅂ', 'ㅆ'] := by unfold hJong at h1; simpa using h1
      unfold hMergeStem at hst
      by_cases hgeu : X.front.getLast? = some '그' ∧ X.ll.1 = 'ㄹ'
      · rw [if_pos hgeu] at hst
        cases hst
        obtain ⟨fr, hfr⟩ : ∃ fr, X.front = fr ++ ['그'] := by
          rcases List.eq_nil_or_concat X.front with e | ⟨fr, b, e⟩
          · rw [e] at hgeu; cases hgeu.1
          · rw [List.concat_eq_append] at e
            rw [e, List.getLast?_concat] at hgeu
            exact ⟨fr, by rw [e, Option.some.inj hgeu.1]⟩
        rw [hgeu.2] at hlast
        have := Covered.hMergeGeu fr X.last e X.r _ _ _ hv hz hlast he'
        rw [hfr]
        simpa using this
      · rw [if_neg hgeu] at hst
        obtain ⟨c, hc, rfl⟩ := map_ok hst
        exact .hMerge X.front c X.last _ e X.r _ _ _ hv hz hgeu (isSyllableOf_iff.2 hc) hlast he'
  · unfold lemI at ha
    obtain ⟨⟨h0, h1⟩, ha⟩ := if_mem ha hm
    obtain ⟨c, e, hc, he, hq⟩ := lemVowel_mem ha hm
    cases hq
    rw [h1] at hlast
    refine .i X.front c X.last _ e X.r _ ?_ hc hlast he
    rcases h0 with h0 | h0 | h0 <;> rw [h0] <;> simp

private theorem keep_h {word stem ending : Str} (h : keepCandidate word (stem, ending) = .ok true) :
    ∀ e0, ending.head? = some e0 → ∀ x y, ¬ IsSyllableOf e0 x y 'ㅎ' := by
  intro e0 he x y hs
  cases ending with
  | nil => cases he
  | cons a as =>
    cases he
    simp [keepCandidate, isSyllableOf_decompose hs] at h

private theorem candidate_covered {l r : Str} (hne : l ≠ []) (hl : ∀ c ∈ l, Syllable c) (hr : ∀ c ∈ r, Syllable c) {out : Cand}
    (h : lemmaCandidate l r = .ok out) {stem ending : Str} (hm : (stem, ending) ∈ out) :
    Covered stem ending (l ++ r) ∧ ∀ e0, ending.head? = some e0 → ∀ x y, ¬ IsSyllableOf e0 x y 'ㅎ' := by
  obtain ⟨last, ll, lOpen, x, h1, h2, h3, h4, g, e1, e2, e3, e4, e5⟩ := lemCtx_good l r hne hl hr
  obtain ⟨c, hc, _⟩ := runLem_ok x lemRules (fine_rules g)
  have hraw : rawCandidates l r [] = .ok ((l, r) :: c) := by
    simp [rawCandidates, h1, h2, h3, h4, hc, Dict.getD, Dict.get?]
  have hcand : filterCandidates (l ++ r) ((l, r) :: c) = .ok out := by
    unfold lemmaCandidate at h
    rw [hraw] at h; exact h
  obtain ⟨hin, hkeep⟩ := (mem_filterCandidates _ _ _ hcand _).1 hm
  refine ⟨?_, keep_h hkeep⟩
  obtain ⟨hend, forms, hf, hw⟩ := keepCandidate_true hkeep
  rcases List.mem_cons.1 hin with heq | hin
  · cases heq
    exact .regular l r hr
  · obtain ⟨f, hf1, a, ha, hq⟩ := runLem_mem x lemRules c hc _ hin
    have := rule_covered g (by rw [e5]; exact hr) hf1 ha hq hend hf (by rw [e1, e5]; exact hw)
    rw [e1, e5] at this
    exact this

/-- what the rule pairs say about the stem and the ending of a word of complete syllables -/
private theorem covered_shape {stem ending word : Str} (h : Covered stem ending word) (hw : ∀ c ∈ word, Syllable c) :
    (∀ c ∈ stem, Syllable c) ∧ (∀ c ∈ ending.drop 1, Syllable c) ∧ (∀ e0, ending.head? = some e0 → Syllable e0 ∨ Consonant e0) := by
  have hsyl : ∀ {c x y z : Char}, IsSyllableOf c x y z → Syllable c := fun hi => (compose_inv (isSyllableOf_iff.1 hi)).2.1
  have one : ∀ {front t : Str} {c c' : Char}, (∀ c ∈ front ++ c' :: t, Syllable c) → Syllable c → ∀ d ∈ front ++ [c], Syllable d := by
    intro front t c c' hw hc d hd
    rcases List.mem_append.1 hd with hd | hd
    · exact hw d (by simp [hd])
    · rw [List.mem_singleton.1 hd]; exact hc
  have two : ∀ {front t : Str} {c c' c2 : Char}, (∀ c ∈ front ++ c' :: t, Syllable c) → Syllable c → Syllable c2 → ∀ d ∈ front ++ [c, c2], Syllable d := by
    intro front t c c' c2 hw hc hc2 d hd
    simp only [List.mem_append, List.mem_cons, List.not_mem_nil, or_false] at hd
    rcases hd with hd | hd | hd
    · exact hw d (by simp [hd])
    · rw [hd]; exact hc
    · rw [hd]; exact hc2
  have hd : ∀ {e : Char} {es : Str}, Syllable e ∨ Consonant e → ∀ e0, (e :: es).head? = some e0 → Syllable e0 ∨ Consonant e0 := by
    intro e es h e0 he; cases he; exact h
  cases h with
  | regular _ _ h =>
    refine ⟨fun c hc => hw c (List.mem_append_left _ hc), fun c hc => h c (List.mem_of_mem_drop hc), fun e0 he => .inl (h e0 (List.mem_of_head? he))⟩
  | d front c c' x y e es v w h1 h2 h3 => exact ⟨one hw (hsyl h1), fun c hc => hw c (by simp at hc; simp [hc]), hd (.inl (hsyl h3))⟩
  | reu front c c' x y e e' es v w h1 h2 h3 h4 hv =>
    exact ⟨two hw (hsyl h1) (by decide), fun c hc => hw c (by simp at hc; simp [hc]), hd (.inl (hsyl h3))⟩
  | bVowel front c c' x y e e' es v v' w h1 h2 h3 h4 hv => exact ⟨one hw (hsyl h1), fun c hc => hw c (by simp at hc; simp [hc]), hd (.inl (hsyl h3))⟩
  | bDrop front c c' x y e es v w h1 h2 h3 hv hr => exact ⟨one hw (hsyl h1), fun c hc => hw c (by simp at hc; simp [hc]), hd (.inl (hsyl h3))⟩
  | attach front c c' x y z s es hs h1 hz hne h2 =>
    exact ⟨one hw (hsyl h1), fun c hc => hw c (by simp at hc; simp [hc]), hd (.inr (attaching_consonant hs).1)⟩
  | s front c c' x y e es v w h1 h2 h3 => exact ⟨one hw (hsyl h1), fun c hc => hw c (by simp at hc; simp [hc]), hd (.inl (hsyl h3))⟩
  | peo front es => exact ⟨one hw (by decide), fun c hc => hw c (by simp at hc; simp [hc]), hd (.inl (by decide))⟩
  | u front c c' x e es w h1 h2 h3 => exact ⟨one hw (hsyl h1), fun c hc => hw c (by simp at hc; simp [hc]), hd (.inl (hsyl h3))⟩
  | o front c c' x e es w h1 h2 h3 => exact ⟨one hw (hsyl h1), fun c hc => hw c (by simp at hc; simp [hc]), hd (.inl (hsyl h3))⟩
  | eu front c c' x e es v w hv h1 h2 h3 => exact ⟨one hw (hsyl h1), fun c hc => hw c (by simp at hc; simp [hc]), hd (.inl (hsyl h3))⟩
  | euOpen front c x y e es v w hv h1 h3 => exact ⟨two hw (hsyl h1) (by decide), fun c hc => hw c (by simp at hc; simp [hc]), hd (.inl (hsyl h3))⟩
  | ha front c' e es w h2 h3 => exact ⟨one hw (by decide), fun c hc => hw c (by simp at hc; simp [hc]), hd (.inl (hsyl h3))⟩
  | hDrop front c c' x v _ hv h1 h2 he =>
    exact ⟨one hw (hsyl h1), fun c hc => he c (List.mem_of_mem_drop hc), fun e0 h0 => .inl (he e0 (List.mem_of_head? h0))⟩
  | hMerge front c c' x e es v v' w hv hw' hf h1 h2 h3 => exact ⟨one hw (hsyl h1), fun c hc => hw c (by simp at hc; simp [hc]), hd (.inl (hsyl h3))⟩
  | hMergeGeu front c' e es v v' w hv hw' h2 h3 =>
    exact ⟨two hw (by decide) (by decide), fun c hc => hw c (by simp at hc; simp [hc]), hd (.inl (hsyl h3))⟩
  | i front c c' x e es w hw' h1 h2 h3 => exact ⟨one hw (hsyl h1), fun c hc => hw c (by simp at hc; simp [hc]), hd (.inl (hsyl h3))⟩

/-- C44: the lemmatiser without user-defined lemmas, exactly. On a word of complete syllables `lemmatize` returns the pair
    `(stem, ending)` if and only if both are known (the stem alone with `check_only_stem`), the word is a form of
    `conjugate(stem, ending)`, it is made by one of the rule pairs of `Covered`, and the ending's first syllable does not
    end in ㅎ. In particular a form made in any other way is never taken apart into its stem and ending. -/
theorem C44_exact (stems endings : Str → Bool) (word : Str) (hw : ∀ c ∈ word, Syllable c) (checkOnlyStem : Bool) :
    ∃ out, lemmatize ⟨stems, endings, []⟩ word checkOnlyStem = .ok out ∧ ∀ stem ending, (stem, ending) ∈ out ↔
      stems stem = true ∧ (checkOnlyStem = true ∨ endings ending = true) ∧
      (∃ forms, conjugate stem ending = .ok forms ∧ word ∈ forms) ∧ Covered stem ending word ∧
      (∀ e0, ending.head? = some e0 → ∀ x y, ¬ IsSyllableOf e0 x y 'ㅎ') := by
  obtain ⟨out, hout⟩ := (C41_succeeds_iff stems endings word checkOnlyStem).2 hw
  refine ⟨out, hout, ?_⟩
  intro stem ending
  rw [mem_lemmatize hout]
  constructor
  · rintro ⟨i, hi, hil, cs, hcs, hm, h1, h2⟩
    have hne : word.take i ≠ [] := by
      intro e
      have := congrArg List.length e
      rw [List.length_take, List.length_nil] at this
      omega
    obtain ⟨h3, h4⟩ := candidate_covered hne (fun c hc => hw c (List.mem_of_mem_take hc)) (fun c hc => hw c (List.mem_of_mem_drop hc)) hcs hm
    rw [List.take_append_drop] at h3
    obtain ⟨_, b, hb, hwb⟩ := lemmaCandidate_sound hcs _ hm
    rw [List.take_append_drop] at hwb
    exact ⟨h1, h2, ⟨b, hb, hwb⟩, h3, h4⟩
  · rintro ⟨h1, h2, ⟨forms, hf, hwf⟩, hcov, hh⟩
    obtain ⟨s1, s2, s3⟩ := covered_shape hcov hw
    obtain ⟨e0, he0⟩ : ∃ e0, ending.head? = some e0 := by
      cases ending with
      | nil => simp [conjugate] at hf
      | cons a as => exact ⟨a, rfl⟩
    obtain ⟨⟨l, r, cs, hl, hlr, hcs, hm⟩, _⟩ := C44_recovers stem ending word forms e0 s1 he0 (s3 e0 he0) (hh e0 he0) s2 hf hwf hcov
    subst hlr
    refine ⟨l.length, List.length_pos_iff.2 hl, by simp, cs, ?_, hm, h1, h2⟩
    rw [List.take_left, List.drop_left]; exact hcs

/-! concrete cases: 시퍼렜다 is covered (see C44), 갔다 = 가 + 았다 is a form but not covered, so it is lost -/
example : ∀ c ∈ "갔다".toList, Syllable c := by decide
example : "갔다".toList ∈ (conjugate "가".toList "았다".toList).toOption.getD [] := by decide +kernel
example : ((lemmatize C44_all "갔다".toList).toOption.getD []).contains ("가".toList, "았다".toList) = false := by decide +kernel
example : ((lemmatize C44_all "시퍼렜다".toList).toOption.getD []).contains ("시퍼렇".toList, "었다".toList) = true := by decide +kernel

end Props
