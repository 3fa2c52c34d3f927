import Verif.Proofs.Predicator
import Verif.Props.C41_C43
/-! C50: predicators are partitioned into adjectives and verbs. -/
set_option linter.unusedSimpArgs false
namespace Props
open Py Spec

/-- the stem looks like an adjective stem -/
def AdjStem (stem : Str) : Prop :=
  ∃ x ∈ ["같".toList, "답".toList, "롭".toList, "만하".toList, "스럽".toList, "시럽".toList, "이".toList, "아니".toList], x <:+ stem

/-- the stem looks like a verb stem -/
def VerbStem (stem : Str) : Prop := ∃ x ∈ ["거리".toList, "당하".toList, "당허".toList, "시키".toList], x <:+ stem

/-- the endings that only verbs take: present, imperative, and of suggestions -/
def verbEndings (stem : Str) : List Str :=
  match stem.getLast?.map Lemma.decomposeList with
  | some (.ok d) =>
    (if d.2.2 = ' ' then ["ㄴ다".toList, "ㄴ다고".toList] else ["는다".toList, "는다고".toList]) ++ ["고있는".toList] ++
    (if d.2.1 = 'ㅓ' ∨ d.2.1 = 'ㅕ' then ["어라".toList] else ["아라".toList]) ++
    ["자".toList, "ㄹ까".toList, "ㄹ까봐".toList, "까".toList, "까봐".toList, "을까".toList, "을까봐".toList]
  | _ => []

/-- `w` is a form of the stem with one of these endings -/
def VerbForm (stem w : Str) : Prop := ∃ e ∈ verbEndings stem, ∃ b, Lemma.conjugate stem e = .ok b ∧ w ∈ b

/-- whether a stem is taken for that of a verb: the dictionaries decide, verbs first; then the last characters; then whether at least
    two different verb forms of it are among the words -/
def IsVerbStem (verbs adjectives : List Str) (words : Str → Prop) (stem : Str) : Prop :=
  stem ∈ verbs ∨ (stem ∉ adjectives ∧ ¬ AdjStem stem ∧ (VerbStem stem ∨ ∃ w w', w ≠ w' ∧ VerbForm stem w ∧ VerbForm stem w' ∧ words w ∧ words w'))

/-! ### proofs -/

private theorem contains_suffix (l : List Str) (hl : ∀ x ∈ l, x.length = 1 ∨ x.length = 2) (stem : Str) :
    (l.contains (Pred.lastChars 1 stem) || l.contains (Pred.lastChars 2 stem)) = true ↔ ∃ x ∈ l, x <:+ stem := by
  rw [Bool.or_eq_true, List.contains_iff_mem, List.contains_iff_mem]
  constructor
  · rintro (h | h)
    · exact ⟨_, h, List.drop_suffix _ _⟩
    · exact ⟨_, h, List.drop_suffix _ _⟩
  · rintro ⟨x, hx, hs⟩
    have : x = stem.drop (stem.length - x.length) := List.suffix_iff_eq_drop.1 hs
    unfold Pred.lastChars
    rcases hl x hx with h | h
    · left; rw [h] at this; rw [← this]; exact hx
    · right; rw [h] at this; rw [← this]; exact hx

private theorem ruleClassify_eq {stem : Str} (hne : stem ≠ []) :
    (AdjStem stem → Pred.ruleClassify stem = .ok .adjective) ∧ (¬ AdjStem stem → VerbStem stem → Pred.ruleClassify stem = .ok .verb) ∧
    (¬ AdjStem stem → ¬ VerbStem stem → Pred.ruleClassify stem = .ok .unknown) := by
  have h1 := contains_suffix Pred.adjSuffixes (by decide) stem
  have h2 := contains_suffix Pred.verbSuffixes (by decide) stem
  have h1' : _ ↔ AdjStem stem := h1
  have h2' : _ ↔ VerbStem stem := h2
  unfold Pred.ruleClassify
  rw [if_neg hne]
  refine ⟨fun h => ?_, fun h h' => ?_, fun h h' => ?_⟩
  · rw [if_pos (h1'.2 h)]
  · rw [if_neg (fun x => h (h1'.1 x)), if_pos (h2'.2 h')]
  · rw [if_neg (fun x => h (h1'.1 x)), if_neg (fun x => h' (h2'.1 x))]

private theorem two_of {α} [DecidableEq α] (l : List α) (hn : l.Nodup) : (!decide (l.length ≤ 1)) = true ↔ ∃ a b, a ≠ b ∧ a ∈ l ∧ b ∈ l := by
  rw [Bool.not_eq_true', decide_eq_false_iff_not]
  constructor
  · intro h
    match l, hn, h with
    | a :: b :: rest, hn, _ =>
      rw [List.nodup_cons, List.mem_cons, not_or] at hn
      exact ⟨a, b, hn.1.1, by simp, by simp⟩
    | [], _, h => simp at h
    | [a], _, h => simp at h
  · rintro ⟨a, b, hab, ha, hb⟩ hle
    match l, ha, hb, hle with
    | [], ha, _, _ => simp at ha
    | [c], ha, hb, _ => simp at ha hb; exact hab (ha.trans hb.symm)

private theorem mem_conjugateAll {stem : Str} {es : List Str} {out : List Str} (h : Pred.conjugateAll stem es = .ok out) (w : Str) :
    w ∈ out ↔ ∃ e ∈ es, ∃ b, Lemma.conjugate stem e = .ok b ∧ w ∈ b := by
  unfold Pred.conjugateAll at h
  obtain ⟨bss, hb, rfl⟩ := Lemma.map_ok h
  exact Lemma.mem_mapM_flatten _ _ _ hb w

private theorem lastJamo_eq {stem : Str} {d : Lemma.Jamo} (h : Pred.lastJamo stem = .ok d) : stem.getLast?.map Lemma.decomposeList = some (.ok d) := by
  unfold Pred.lastJamo at h
  cases hl : stem.getLast? with
  | none => rw [hl] at h; cases h
  | some c =>
    rw [hl] at h
    dsimp only at h
    show some (Lemma.decomposeList c) = _
    unfold Lemma.decomposeList
    cases hd : Hangle.decompose c with
    | error e => rw [hd] at h; cases h
    | ok o => cases o with
      | none => rw [hd] at h; cases h
      | some d' => rw [hd] at h; rw [Except.ok.inj h]

private theorem surfaceTest_iff {known : Str → Bool} {stem : Str} {b : Bool} (h : Pred.surfaceTest known stem = .ok b) :
    b = true ↔ ∃ w w', w ≠ w' ∧ VerbForm stem w ∧ VerbForm stem w' ∧ known w = true ∧ known w' = true := by
  unfold Pred.surfaceTest at h
  cases ha : Pred.asPresent stem with
  | error e => rw [ha] at h; cases h
  | ok a =>
    cases hi : Pred.asImperative stem with
    | error e => rw [ha, hi] at h; cases h
    | ok i =>
      rw [ha, hi] at h
      dsimp only at h
      obtain ⟨c, hc, rfl⟩ := Lemma.map_ok h
      have hmem : ∀ w, w ∈ a ++ i ++ c ↔ VerbForm stem w := by
        intro w
        unfold Pred.asPresent at ha
        unfold Pred.asImperative at hi
        unfold Pred.asPleasure at hc
        cases hj : Pred.lastJamo stem with
        | error e => rw [hj] at ha; cases ha
        | ok d =>
          rw [hj] at ha hi
          dsimp only at ha hi
          unfold VerbForm verbEndings
          rw [lastJamo_eq hj]
          dsimp only
          rw [List.mem_append, List.mem_append, mem_conjugateAll hc]
          by_cases h1 : d.2.2 = ' ' <;> by_cases h2 : d.2.1 = 'ㅓ' ∨ d.2.1 = 'ㅕ'
          all_goals
            first | rw [if_pos h1] at ha | rw [if_neg h1] at ha
            first | rw [if_pos h2] at hi | rw [if_neg h2] at hi
            rw [mem_conjugateAll ha, mem_conjugateAll hi]
            first | rw [if_pos h1] | rw [if_neg h1]
            first | rw [if_pos h2] | rw [if_neg h2]
            simp only [List.mem_append, List.mem_cons, List.not_mem_nil, or_false, or_and_right, exists_or, exists_eq_left, or_assoc]
      rw [two_of _ ((List.nodup_dedup _).sublist List.filter_sublist)]
      simp only [List.mem_filter, List.mem_dedup, hmem]
      constructor
      · rintro ⟨x, y, hxy, ⟨h1, h2⟩, h3, h4⟩; exact ⟨x, y, hxy, h1, h3, h2, h4⟩
      · rintro ⟨x, y, hxy, h1, h3, h2, h4⟩; exact ⟨x, y, hxy, ⟨h1, h2⟩, h3, h4⟩

theorem pred_isVerb_iff {s : Pred.State} {known : Str → Bool} {l : Str × Str} {b : Bool} (h : Pred.isVerb s known l = .ok b) :
    b = true ↔ IsVerbStem s.verbs s.adjectives (fun w => known w = true) l.1 := by
  unfold Pred.isVerb at h
  unfold IsVerbStem
  by_cases hv : l.1 ∈ s.verbs
  · rw [if_pos (by simpa using hv)] at h; cases h; simp [hv]
  · rw [if_neg (by simpa using hv)] at h
    by_cases ha : l.1 ∈ s.adjectives
    · rw [if_pos (by simpa using ha)] at h; cases h; simp [hv, ha]
    · rw [if_neg (by simpa using ha)] at h
      by_cases hne : l.1 = []
      · rw [show Pred.ruleClassify l.1 = .error .indexError from by unfold Pred.ruleClassify; rw [if_pos hne]] at h; cases h
      · obtain ⟨r1, r2, r3⟩ := ruleClassify_eq hne
        by_cases h1 : AdjStem l.1
        · rw [r1 h1] at h; cases h; simp [hv, h1]
        · by_cases h2 : VerbStem l.1
          · rw [r2 h1 h2] at h; cases h; simp [ha, h1, h2]
          · rw [r3 h1 h2] at h
            rw [surfaceTest_iff h]
            simp [hv, ha, h1, h2]

/-- C50: every predicator is found, under the same word and with the same frequency, among the adjectives, the verbs or both, and nothing
    else is; each of its lemmas is in exactly one of the two, and in the verbs iff its stem is taken for a verb stem. -/
theorem C50_partition (s : Pred.State) (predicators adj vb : Dict Str Pred.Entry) (hw : Dict.WF predicators)
    (h : Pred.separate s predicators = .ok (adj, vb)) :
    (∀ w, Dict.get? predicators w = none → Dict.get? adj w = none ∧ Dict.get? vb w = none) ∧
    ∀ w c ls, Dict.get? predicators w = some (c, ls) → ∃ as vs, (as ++ vs).Perm ls ∧
      Dict.get? adj w = (if as = [] then none else some (c, as)) ∧ Dict.get? vb w = (if vs = [] then none else some (c, vs)) ∧
      (∀ p ∈ as, ¬ IsVerbStem s.verbs s.adjectives (fun w => Dict.get? predicators w ≠ none) p.1) ∧
      (∀ p ∈ vs, IsVerbStem s.verbs s.adjectives (fun w => Dict.get? predicators w ≠ none) p.1) := by
  unfold Pred.separate at h
  obtain ⟨h1, h2⟩ := Pred.separateLoop_spec hw h
  refine ⟨fun w hn => ?_, fun w c ls hs => ?_⟩
  · rw [(h2 w).1, (h2 w).2, hn]; exact ⟨rfl, rfl⟩
  · have hall := h1 (w, c, ls) (Dict.mem_of_get? hs)
    have hk : (fun w => Dict.get? predicators w ≠ none) = (fun w => Dict.has predicators w = true) := by
      funext w
      show _ = ((Dict.get? predicators w).isSome = true)
      rw [Option.isSome_iff_ne_none]
    refine ⟨ls.filter (fun l => !Pred.verbLemma s (Dict.has predicators) l), ls.filter (Pred.verbLemma s (Dict.has predicators)), ?_, ?_, ?_, ?_, ?_⟩
    · exact List.perm_append_comm.trans (List.filter_append_perm _ _)
    · rw [(h2 w).1, hs]
      show (Pred.report c _).or none = _
      unfold Pred.report; simp
    · rw [(h2 w).2, hs]
      show (Pred.report c _).or none = _
      unfold Pred.report; simp
    · intro p hp hv
      have hp' := List.mem_filter.1 hp
      rw [hk, ← pred_isVerb_iff (hall p hp'.1)] at hv
      rw [hv] at hp'; simp at hp'
    · intro p hp
      have hp' := List.mem_filter.1 hp
      rw [hk, ← pred_isVerb_iff (hall p hp'.1)]
      exact hp'.2

/-- C50: with stems that are all in the dictionaries the separation never raises. -/
theorem C50_total (s : Pred.State) (predicators : Dict Str Pred.Entry)
    (h : ∀ kp ∈ predicators, ∀ l ∈ kp.2.2, l.1 ∈ s.adjectives ∨ l.1 ∈ s.verbs) : ∃ av, Pred.separate s predicators = .ok av :=
  Pred.separateLoop_ok _ _ _ (fun kp hkp l hl => ⟨_, Pred.isVerb_dict (h kp hkp l hl)⟩)

private theorem conjugateAll_ok {stem : Str} {es : List Str} (hne : stem ≠ []) (hs : ∀ c ∈ stem, Syllable c)
    (h : ∀ e ∈ es, ∃ e0, e.head? = some e0 ∧ (Syllable e0 ∨ Consonant e0) ∧ e0 ≠ 'ㅇ') : ∃ out, Pred.conjugateAll stem es = .ok out := by
  obtain ⟨out, ho⟩ := (Lemma.mapM_ok_iff (fun e => Lemma.conjugate stem e) es).2 (by
    intro e he
    obtain ⟨e0, h1, h2, h3⟩ := h e he
    obtain ⟨b, hb, _⟩ := Lemma.conjugate_total false hne hs h1 h2 h3
    exact ⟨b, hb⟩)
  exact ⟨out.flatten, by unfold Pred.conjugateAll; rw [ho]; rfl⟩

private theorem heads_ok (es : List Str)
    (h : es.all (fun e => match e with | [] => false | e0 :: _ => decide ((Syllable e0 ∨ Consonant e0) ∧ e0 ≠ 'ㅇ')) = true) :
    ∀ e ∈ es, ∃ e0, e.head? = some e0 ∧ (Syllable e0 ∨ Consonant e0) ∧ e0 ≠ 'ㅇ' := by
  intro e he
  have := List.all_eq_true.1 h e he
  cases e with
  | nil => simp at this
  | cons e0 es => exact ⟨e0, rfl, (of_decide_eq_true this).1, (of_decide_eq_true this).2⟩

theorem pred_isVerb_total (s : Pred.State) (known : Str → Bool) (l : Str × Str) (hne : l.1 ≠ []) (hsy : ∀ c ∈ l.1, Syllable c) :
    ∃ b, Pred.isVerb s known l = .ok b := by
  unfold Pred.isVerb
  by_cases hv : l.1 ∈ s.verbs
  · rw [if_pos (by simpa using hv)]; exact ⟨_, rfl⟩
  rw [if_neg (by simpa using hv)]
  by_cases ha : l.1 ∈ s.adjectives
  · rw [if_pos (by simpa using ha)]; exact ⟨_, rfl⟩
  rw [if_neg (by simpa using ha)]
  obtain ⟨r1, r2, r3⟩ := ruleClassify_eq hne
  by_cases h1 : AdjStem l.1
  · rw [r1 h1]; exact ⟨_, rfl⟩
  by_cases h2 : VerbStem l.1
  · rw [r2 h1 h2]; exact ⟨_, rfl⟩
  rw [r3 h1 h2]
  dsimp only
  obtain ⟨d, hd⟩ : ∃ d, Pred.lastJamo l.1 = .ok d := by
    unfold Pred.lastJamo
    cases hlast : l.1.getLast? with
    | none => exact absurd (List.getLast?_eq_none_iff.1 hlast) hne
    | some c =>
      dsimp only
      obtain ⟨d, hd, _⟩ := Lemma.decomposeList_syllable (hsy c (List.mem_of_getLast? hlast))
      unfold Lemma.decomposeList at hd
      cases hdc : Hangle.decompose c with
      | error e => rw [hdc] at hd; cases hd
      | ok o => cases o with
        | none => rw [hdc] at hd; cases hd
        | some d => exact ⟨d, rfl⟩
  unfold Pred.surfaceTest Pred.asPresent Pred.asImperative Pred.asPleasure
  rw [hd]
  dsimp only
  have ok : ∀ es : List Str, es.all (fun e => match e with | [] => false | e0 :: _ => decide ((Syllable e0 ∨ Consonant e0) ∧ e0 ≠ 'ㅇ')) = true →
      ∃ out, Pred.conjugateAll l.1 es = .ok out := fun es h => conjugateAll_ok hne hsy (heads_ok es h)
  obtain ⟨o1, e1⟩ := ok ["ㄴ다".toList, "ㄴ다고".toList, "고있는".toList] (by decide +kernel)
  obtain ⟨o2, e2⟩ := ok ["는다".toList, "는다고".toList, "고있는".toList] (by decide +kernel)
  obtain ⟨o3, e3⟩ := ok ["어라".toList] (by decide +kernel)
  obtain ⟨o4, e4⟩ := ok ["아라".toList] (by decide +kernel)
  obtain ⟨o5, e5⟩ := ok ["자".toList, "ㄹ까".toList, "ㄹ까봐".toList, "까".toList, "까봐".toList, "을까".toList, "을까봐".toList] (by decide +kernel)
  rw [e1, e2, e3, e4, e5]
  by_cases c1 : d.2.2 = ' ' <;> by_cases c2 : d.2.1 = 'ㅓ' ∨ d.2.1 = 'ㅕ'
  all_goals
    first | rw [if_pos c1] | rw [if_neg c1]
    dsimp only
    first | rw [if_pos c2] | rw [if_neg c2]
    exact ⟨_, rfl⟩

/-- C50: nor does it raise with stems of complete syllables, in the dictionaries or not. -/
theorem C50_total_syllables (s : Pred.State) (predicators : Dict Str Pred.Entry)
    (h : ∀ kp ∈ predicators, ∀ l ∈ kp.2.2, l.1 ≠ [] ∧ ∀ c ∈ l.1, Syllable c) : ∃ av, Pred.separate s predicators = .ok av :=
  Pred.separateLoop_ok _ _ _ (fun kp hkp l hl => pred_isVerb_total _ _ l (h kp hkp l hl).1 (h kp hkp l hl).2)

private def ex : Pred.State := { nouns := [], josas := [], adjectives := ["예쁘".toList], verbs := ["먹".toList], stems := [], eomis := [] }
/-- the empty stem raises -/
example : (match Pred.separate ex [("a".toList, 1, [([], "다".toList)])] with | .error e => some e | .ok _ => none) = some .indexError := by decide +kernel
/-- dictionaries, last characters, and surface forms: 뛰 is a verb because 뛴다 and 뛰자 were found; 붉 has no such form -/
example : (match Pred.separate ex [("먹다".toList, 3, [("먹".toList, "다".toList)]), ("예쁘다".toList, 2, [("예쁘".toList, "다".toList)]),
      ("뛴다".toList, 5, [("뛰".toList, "ㄴ다".toList)]), ("뛰자".toList, 5, [("뛰".toList, "자".toList)]), ("붉다".toList, 4, [("붉".toList, "다".toList)]),
      ("자랑스럽다".toList, 1, [("자랑스럽".toList, "다".toList)]), ("울먹거리다".toList, 1, [("울먹거리".toList, "다".toList)])] with
    | .ok (adj, vb) => decide (Dict.keys adj = ["예쁘다".toList, "붉다".toList, "자랑스럽다".toList] ∧
        Dict.keys vb = ["먹다".toList, "뛴다".toList, "뛰자".toList, "울먹거리다".toList])
    | .error _ => false) = true := by decide +kernel
/-- a verb stem outside the dictionaries that ends in 이 is taken for an adjective -/
example : (match Pred.separate ex [("보인다".toList, 9, [("보이".toList, "ㄴ다".toList)]), ("보이자".toList, 9, [("보이".toList, "자".toList)])] with
    | .ok (adj, vb) => decide (Dict.keys adj = ["보인다".toList, "보이자".toList] ∧ Dict.keys vb = [])
    | .error _ => false) = true := by decide +kernel

end Props
