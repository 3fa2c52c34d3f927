import Verif.Proofs.ConjStem
import Verif.Props.C57
/-! C58: the surfaces `_conjugate_stem` gives, exactly; when it raises; how they relate to the forms of `conjugate`. -/
set_option linter.unusedVariables false
namespace Props
open Py Hangle Spec Lemma

/-- C58: for a stem that ends in a syllable - and, if it ends in 르, has a syllable before - the surfaces are exactly those listed. -/
theorem C58_surfaces (front : Str) (c x y z : Char) (hc : IsSyllableOf c x y z) (hq : c = '르' → ∀ q, front.getLast? = some q → Syllable q) :
    ∃ out, conjugateStem (front ++ [c]) = .ok out ∧ ∀ s, s ∈ out ↔ StemSurface front c x y z s :=
  conjugateStem_ok hc hq
example : (conjugateStem "가".toList).toOption = some ["가".toList, "간".toList, "갈".toList, "갑".toList, "갔".toList] := by decide +kernel
example : (conjugateStem "구르".toList).toOption = some ["구르".toList, "굴".toList, "구른".toList, "구를".toList, "구릅".toList, "구릈".toList, "구러".toList, "구렀".toList] := by
  decide +kernel

theorem compose_valueError {a b c : Char} (h : ¬ (a ∈ chosungList ∧ b ∈ jungsungList ∧ c ∈ jongsungList)) : compose a b c = .error .valueError := by
  unfold compose
  simp only [bind, Except.bind]
  by_cases ha : a ∈ chosungList
  · cases h1 : index chosungList a with
    | error e => exact absurd ha ((index_err_iff _ _).1 h1).2
    | ok _ =>
      by_cases hb : b ∈ jungsungList
      · cases h2 : index jungsungList b with
        | error e => exact absurd hb ((index_err_iff _ _).1 h2).2
        | ok _ =>
          have hc : c ∉ jongsungList := fun hc => h ⟨ha, hb, hc⟩
          rw [(index_err_iff (l := jongsungList) c .valueError).2 ⟨rfl, hc⟩]
      · rw [(index_err_iff (l := jungsungList) b .valueError).2 ⟨rfl, hb⟩]
  · rw [(index_err_iff (l := chosungList) a .valueError).2 ⟨rfl, ha⟩]

theorem stem_jamo (front : Str) (c x y : Char) (hd : decomposeList c = .ok (x, y, ' ')) (hn : ¬ (x ∈ chosungList ∧ y ∈ jungsungList)) (hr : c ≠ '르') :
    conjugateStem (front ++ [c]) = .error .valueError := by
  unfold conjugateStem
  rw [List.getLast?_concat]
  dsimp only
  rw [hd]
  dsimp only
  have h : compose x y 'ㄴ' = .error .valueError := compose_valueError (fun h => hn ⟨h.1, h.2.1⟩)
  simp [stemRules, runStem, stemD, stemReu, stemB, stemOpen, hr, surfaces, surface, h, Except.map]

theorem stem_reu_raises (p : Str) (q : Char) (e : PyErr) (h : stemReuBody p q = .error e) : conjugateStem (p ++ [q] ++ ['르']) = .error e := by
  unfold conjugateStem
  rw [List.getLast?_concat]
  dsimp only
  rw [show decomposeList '르' = .ok ('ㄹ', 'ㅡ', ' ') by decide +kernel]
  dsimp only
  simp [stemRules, runStem, stemD, stemReu, h, Except.map]

/-- the exceptions of `_conjugate_stem`: which stems, which exception -/
inductive StemRaises : Str → PyErr → Prop
  | empty : StemRaises [] .indexError
  | foreign (front : Str) (c : Char) : ¬ Korean c → StemRaises (front ++ [c]) .typeError
  | jamo (front : Str) (c : Char) : Consonant c ∨ Vowel c → StemRaises (front ++ [c]) .valueError
  | reuForeign (p : Str) (q : Char) : ¬ Korean q → StemRaises (p ++ [q] ++ ['르']) .typeError
  | reuJamo (p : Str) (q : Char) : Consonant q ∨ Vowel q → StemRaises (p ++ [q] ++ ['르']) .valueError

/-- C58: it raises for exactly these stems, with exactly these exceptions. -/
theorem C58_raises (stem : Str) (e : PyErr) : conjugateStem stem = .error e ↔ StemRaises stem e := by
  have jam : ∀ c, Consonant c ∨ Vowel c → ∃ x y, decomposeList c = .ok (x, y, ' ') ∧ ¬ (x ∈ chosungList ∧ y ∈ jungsungList) := by
    rintro c (h | h)
    · exact ⟨_, _, decomposeList_consonant h, fun h => blank_not_jung h.2⟩
    · exact ⟨_, _, decomposeList_vowel h, fun h => absurd h.1 (by decide)⟩
  have rsyl : Syllable '르' := by unfold Syllable; decide
  have ns : ∀ c, Consonant c ∨ Vowel c → ¬ Syllable c := by
    intro c h hs; unfold Syllable at hs; unfold Consonant Vowel at h; omega
  have to : ∀ e, StemRaises stem e → conjugateStem stem = .error e := by
    intro e h
    cases h with
    | empty => rfl
    | foreign front c h => unfold conjugateStem; rw [List.getLast?_concat]; dsimp only; rw [decomposeList_other h]
    | jamo front c h =>
      obtain ⟨x, y, h1, h2⟩ := jam c h
      exact stem_jamo front c x y h1 h2 (fun h' => ns c h (h' ▸ rsyl))
    | reuForeign p q h => exact stem_reu_raises p q _ (by unfold stemReuBody; rw [decomposeList_other h])
    | reuJamo p q h =>
      obtain ⟨x, y, h1, h2⟩ := jam q h
      refine stem_reu_raises p q _ ?_
      unfold stemReuBody; rw [h1]; dsimp only
      rw [compose_valueError (fun h => h2 ⟨h.1, h.2.1⟩)]; rfl
  refine ⟨fun h => ?_, to e⟩
  rcases List.eq_nil_or_concat stem with rfl | ⟨front, c, rfl⟩
  · cases h; exact .empty
  · rw [List.concat_eq_append] at *
    by_cases hk : Korean c
    · by_cases hs : Syllable c
      · by_cases hr : c = '르' ∧ ∃ q, front.getLast? = some q ∧ ¬ Syllable q
        · obtain ⟨rfl, q, hq, hqs⟩ := hr
          rcases List.eq_nil_or_concat front with rfl | ⟨p, q', rfl⟩
          · cases hq
          · rw [List.concat_eq_append] at *
            rw [List.getLast?_concat] at hq
            cases hq
            by_cases hqk : Korean q
            · have hj : Consonant q ∨ Vowel q := hqk.resolve_left hqs
              have := to _ (.reuJamo p q hj)
              rw [h] at this; cases this; exact .reuJamo p q hj
            · have := to _ (.reuForeign p q hqk)
              rw [h] at this; cases this; exact .reuForeign p q hqk
        · exfalso
          obtain ⟨x, y, z, hxyz⟩ : ∃ x y z, IsSyllableOf c x y z := by
            obtain ⟨d, _, _, h3⟩ := decomposeList_syllable hs
            exact ⟨_, _, _, isSyllableOf_iff.2 h3⟩
          obtain ⟨out, ho, _⟩ := conjugateStem_ok (front := front) hxyz (fun h q hq => Classical.byContradiction fun hn => hr ⟨h, q, hq, hn⟩)
          rw [h] at ho; cases ho
      · have hj : Consonant c ∨ Vowel c := hk.resolve_left hs
        have := to _ (.jamo front c hj)
        rw [h] at this; cases this; exact .jamo front c hj
    · have := to _ (.foreign front c hk)
      rw [h] at this; cases this; exact .foreign front c hk
example : (conjugateStem "가ㅋ".toList) = .error .valueError ∧ (conjugateStem "ab".toList) = .error .typeError := by decide +kernel

/-- an ending whose contraction with the stem `_conjugate_stem` does not foresee: 푸 + 어 -> 퍼; a stem in ㅡ before a vowel other than
    ㅓ and ㅡ (잠그 + 아 -> 잠가); 파랗 + 아 -> 파래, and every contraction to ㅔ (시퍼렇 + 었다 -> 시퍼렜다); 만지 + 어 -> 만져 -/
def Unforeseen (c y z i v w : Char) : Prop :=
  (c = '푸' ∧ i = 'ㅇ' ∧ v = 'ㅓ') ∨ (y = 'ㅡ' ∧ z = ' ' ∧ i = 'ㅇ' ∧ v ≠ 'ㅓ' ∧ v ≠ 'ㅡ') ∨ (z = 'ㅎ' ∧ c ≠ '좋' ∧ i = 'ㅇ' ∧ v = 'ㅏ' ∧ w = ' ') ∨
  (z = 'ㅎ' ∧ c ≠ '좋' ∧ v = 'ㅓ') ∨ (y = 'ㅣ' ∧ z = ' ' ∧ i = 'ㅇ' ∧ v = 'ㅓ' ∧ w = ' ')

/-- C58, what the surfaces are for: every form `conjugate` gives for the stem and an ending whose first syllable has no final, or ㅆ,
    begins with one of the stem's surfaces - apart from the contractions listed in `Unforeseen`. -/
theorem C58_cover (front : Str) (c x y z e i v w : Char) (es : Str) (hc : IsSyllableOf c x y z) (he : IsSyllableOf e i v w)
    (hw : w = ' ' ∨ w = 'ㅆ') (hn : ¬ Unforeseen c y z i v w) (forms : List Str) (h : conjugate (front ++ [c]) (e :: es) = .ok forms)
    (s : Str) (hs : s ∈ forms) (out : List Str) (ho : conjugateStem (front ++ [c]) = .ok out) : ∃ t ∈ out, t <+: s := by
  have ww : w ∈ [' ', 'ㅆ'] := by rcases hw with rfl | rfl <;> decide
  have hq : c = '르' → ∀ q, front.getLast? = some q → Syllable q := by
    rintro rfl q hq
    refine Classical.byContradiction fun hns => ?_
    rcases List.eq_nil_or_concat front with rfl | ⟨p, q', rfl⟩
    · cases hq
    · rw [List.concat_eq_append] at *
      rw [List.getLast?_concat] at hq
      cases hq
      by_cases hk : Korean q
      · have hj : Consonant q ∨ Vowel q := hk.resolve_left hns
        rw [(C58_raises _ _).2 (.reuJamo p q hj)] at ho; cases ho
      · rw [(C58_raises _ _).2 (.reuForeign p q hk)] at ho; cases ho
  obtain ⟨out', ho', hm⟩ := conjugateStem_ok hc hq
  rw [ho] at ho'; cases ho'
  have dc := isSyllableOf_decompose hc
  have key : ∀ t : Str, StemSurface front c x y z t → t <+: s → ∃ t ∈ out, t <+: s := fun t h1 h2 => ⟨t, (hm t).2 h1, h2⟩
  have fin : ∀ c', z = ' ' → IsSyllableOf c' x y w → StemSurface front c x y z (front ++ [c']) := by
    intro c' hz h'
    rcases hw with rfl | rfl
    · subst hz
      have : c' = c := by
        have h1 := isSyllableOf_iff.1 h'; have h2 := isSyllableOf_iff.1 hc
        rw [h1] at h2; exact Except.ok.inj h2
      rw [this]; exact .self
    · exact .open c' 'ㅆ' hz (by decide) h'
  rcases (C57_forms front c x y z e i v w es hc he forms h s).1 hs with hir | ⟨_, hr⟩
  · cases hir with
    | da h => exact key _ .self (by simp [List.prefix_append_right_inj])
    | d c' h1 h2 h3 => exact key _ (.d c' h1 h3) (by simp [List.prefix_append_right_inj])
    | dKeep => exact key _ .self (by simp [List.prefix_append_right_inj])
    | reu p q q0 q1 q2 q' r h1 h2 h3 h4 h5 h6 h7 h8 => exact key _ (.reu p q q0 q1 q2 q' h1 h2 h6 h7) (by simp [List.prefix_append_right_inj])
    | bWo c' r h1 h2 h3 h4 h5 => exact key _ (.drop c' (.inl h1) h4) (by simp [List.prefix_append_right_inj])
    | bWa c' r h1 h2 h3 h4 h5 h6 => exact key _ (.drop c' (.inl h1) h5) (by simp [List.prefix_append_right_inj])
    | bDrop c' h1 h2 h3 h4 h5 => exact key _ (.drop c' (.inl h1) h5) (by simp [List.prefix_append_right_inj])
    | s c' h1 h2 h3 h4 => exact key _ (.drop c' (.inr ⟨h1, h3⟩) h4) (by simp [List.prefix_append_right_inj])
    | beot => exact key _ .self (by simp [List.prefix_append_right_inj])
    | pu h1 h2 h3 => exact absurd (.inl ⟨h1, h2, h3⟩) hn
    | u c' h1 h2 h3 h4 h5 h6 => exact key _ (.u c' w h1 h2 h3 ww h6) (by simp [List.prefix_append_right_inj])
    | o c' h1 h2 h3 h4 h5 => exact key _ (.o c' w h1 h2 ww h5) (by simp [List.prefix_append_right_inj])
    | euDrop h1 h2 h3 => exact key _ (.euDrop h1 h2) (List.prefix_append _ _)
    | eu c' h1 h2 h3 h4 h5 h6 =>
      by_cases hv : v = 'ㅓ'
      · subst hv; exact key _ (.eu c' w h1 h2 ww h6) (by simp [List.prefix_append_right_inj])
      · by_cases hv' : v = 'ㅡ'
        · rw [hv', ← h1] at h6; exact key _ (fin c' h2 h6) (by simp [List.prefix_append_right_inj])
        · exact absurd (.inr (.inl ⟨h1, h2, h3, hv, hv'⟩)) hn
    | raO h1 h2 h3 =>
      obtain ⟨rfl, rfl, rfl⟩ := (chr_iff dc (show decomposeList '오' = .ok ('ㅇ', 'ㅗ', ' ') by decide +kernel)).1 h3
      exact key _ (.o '와' ' ' rfl rfl (by decide) ⟨11, 9, 0, by decide, by decide⟩) (by simp [List.prefix_append_right_inj])
    | raU h1 h2 h3 =>
      obtain ⟨rfl, rfl, rfl⟩ := (chr_iff dc (show decomposeList '우' = .ok ('ㅇ', 'ㅜ', ' ') by decide +kernel)).1 h3
      exact key _ (.u '워' ' ' rfl rfl (by rw [h3]; decide) (by decide) ⟨11, 14, 0, by decide, by decide⟩) (by simp [List.prefix_append_right_inj])
    | raGa => exact key _ .self (by simp [List.prefix_append_right_inj])
    | raEo => exact key _ .self (by simp [List.prefix_append_right_inj])
    | raA => exact key _ .self (by simp [List.prefix_append_right_inj])
    | reo => exact key _ .self (by simp [List.prefix_append_right_inj])
    | yeo => exact key _ .self (by simp [List.prefix_append_right_inj])
    | hae c' h1 h2 h3 h4 =>
      refine key _ (.ha c' h1 ?_) (by simp [List.prefix_append_right_inj])
      rcases hw with rfl | rfl
      · have h5 := isSyllableOf_iff.1 h4
        rw [show compose 'ㅎ' 'ㅐ' ' ' = .ok '해' by decide +kernel] at h5; cases h5; decide
      · have h5 := isSyllableOf_iff.1 h4
        rw [show compose 'ㅎ' 'ㅐ' 'ㅆ' = .ok '했' by decide +kernel] at h5; cases h5; decide
    | hDrop c' h1 h2 h3 h4 => exact key _ (.hDrop c' ' ' h1 h2 (by decide) h4) (by simp [List.prefix_append_right_inj])
    | hKeep => exact key _ .self (by simp [List.prefix_append_right_inj])
    | hMergeA c' h1 h2 h3 h4 h5 =>
      rcases hw with hw | hw
      · exact absurd (.inr (.inr (.inl ⟨h1, h2, h3, h4, hw⟩))) hn
      · subst hw; exact key _ (.hMerge c' h1 h2 h5) (by simp [List.prefix_append_right_inj])
    | hMergeE c' h1 h2 h3 h4 => exact absurd (.inr (.inr (.inr (.inl ⟨h1, h2, h3⟩)))) hn
    | hNe => exact key _ .self (by simp [List.prefix_append_right_inj])
    | iYeo c' h1 h2 h3 h4 h5 =>
      rcases hw with hw | hw
      · exact absurd (.inr (.inr (.inr (.inr ⟨h1, h2, h3, h4, hw⟩)))) hn
      · subst hw; exact key _ (.i c' h1 h2 h5) (by simp [List.prefix_append_right_inj])
    | iKeep => exact key _ .self (by simp [List.prefix_append_right_inj])
  · cases hr with
    | merge c' h1 h2 h3 h4 => exact key _ (fin c' h1 h4) (by simp [List.prefix_append_right_inj])
    | join => exact key _ .self (by simp [List.prefix_append_right_inj])
example : (conjugate "더럽".toList "어서".toList).toOption = some ["더러워서".toList] ∧ "더러".toList ∈ (conjugateStem "더럽".toList).toOption.getD [] ∧
    ¬ Unforeseen '럽' 'ㅓ' 'ㅂ' 'ㅇ' 'ㅓ' ' ' := ⟨by decide +kernel, by decide +kernel, by unfold Unforeseen; decide⟩

/-- C58, a gap, for every stem in ㅣ: its contraction with 어 (만지 + 어서 -> 만져서) is a form of it that begins with none of its surfaces. -/
theorem C58_i_missed (front : Str) (c x c' : Char) (es : Str) (hc : IsSyllableOf c x 'ㅣ' ' ') (hc' : IsSyllableOf c' x 'ㅕ' ' ')
    (forms : List Str) (h : conjugate (front ++ [c]) ('어' :: es) = .ok forms) :
    front ++ c' :: es ∈ forms ∧ ∃ out, conjugateStem (front ++ [c]) = .ok out ∧ ∀ t ∈ out, ¬ t <+: front ++ c' :: es := by
  refine ⟨(C57_forms front c x 'ㅣ' ' ' '어' 'ㅇ' 'ㅓ' ' ' es hc ⟨11, 4, 0, by decide, by decide⟩ forms h _).2
    (.inl (.iYeo c' rfl rfl rfl rfl hc')), ?_⟩
  have dc := isSyllableOf_decompose hc
  have hr : c ≠ '르' := fun e => by
    have := ((chr_iff dc (show decomposeList '르' = .ok ('ㄹ', 'ㅡ', ' ') by decide +kernel)).1 e).2.1
    exact absurd this (by decide)
  have hh : c ≠ '하' := fun e => by
    have := ((chr_iff dc (show decomposeList '하' = .ok ('ㅎ', 'ㅏ', ' ') by decide +kernel)).1 e).2.1
    exact absurd this (by decide)
  have heu : c ≠ '으' := fun e => by
    have := ((chr_iff dc (show decomposeList '으' = .ok ('ㅇ', 'ㅡ', ' ') by decide +kernel)).1 e).2.1
    exact absurd this (by decide)
  obtain ⟨out, ho, hm⟩ := conjugateStem_ok (front := front) hc (fun h => absurd h hr)
  refine ⟨out, ho, fun t ht hp => ?_⟩
  have last : ∀ d a b, IsSyllableOf d x a b → front ++ [d] <+: front ++ c' :: es → a = 'ㅕ' ∧ b = ' ' := by
    intro d a b hd hp
    rw [List.prefix_append_right_inj] at hp
    have hdc : d = c' := by simpa using hp
    subst hdc
    have h1 := isSyllableOf_decompose hd
    rw [isSyllableOf_decompose hc'] at h1
    have := Except.ok.inj h1
    exact ⟨(congrArg (·.2.1) this).symm, (congrArg (·.2.2) this).symm⟩
  rcases (hm t).1 ht
  case self => exact absurd (last c _ _ hc hp).1 (by decide)
  case d c' h1 h2 => exact absurd h1 (by decide)
  case reu p q q0 q1 q2 q' h1 h2 h3 h4 => exact hr h1
  case drop c' h1 h2 => exact absurd h1 (by simp)
  case «open» d w h1 h2 h3 => exact absurd (last d _ _ h3 hp).1 (by decide)
  case u d w h1 h2 h3 h4 h5 => exact absurd h1 (by decide)
  case o d w h1 h2 h3 h4 => exact absurd h1 (by decide)
  case eu d w h1 h2 h3 h4 => exact absurd h1 (by decide)
  case euDrop h1 h2 => exact heu h1
  case ha d h1 h2 => exact hh h1
  case hDrop d w h1 h2 h3 h4 => exact absurd h1 (by decide)
  case hMerge d h1 h2 h3 => exact absurd h1 (by decide)
  case i d h1 h2 h3 => exact absurd (last d _ _ h3 hp).2 (by decide)
example : "만져서".toList ∈ (conjugate "만지".toList "어서".toList).toOption.getD [] := by decide +kernel
/-- the other contractions of `Unforeseen`: 퍼, 잠가, 파래, 시퍼렜다 are forms, and no surface begins them -/
example : ["퍼".toList] = (conjugate "푸".toList "어".toList).toOption.getD [] ∧ ∀ t ∈ (conjugateStem "푸".toList).toOption.getD [], ¬ t <+: "퍼".toList := by
  decide +kernel
example : ["잠가".toList] = (conjugate "잠그".toList "아".toList).toOption.getD [] ∧ ∀ t ∈ (conjugateStem "잠그".toList).toOption.getD [], ¬ t <+: "잠가".toList := by
  decide +kernel
example : "파래".toList ∈ (conjugate "파랗".toList "아".toList).toOption.getD [] ∧ ∀ t ∈ (conjugateStem "파랗".toList).toOption.getD [], ¬ t <+: "파래".toList := by
  decide +kernel
example : "시퍼렜다".toList ∈ (conjugate "시퍼렇".toList "었다".toList).toOption.getD [] ∧
    ∀ t ∈ (conjugateStem "시퍼렇".toList).toOption.getD [], ¬ t <+: "시퍼렜다".toList := by decide +kernel

/-- C58, endings that begin with a bare ㄴ, ㄹ, ㅂ or ㅆ, after a stem without a final: every form begins with a surface. -/
theorem C58_cover_bare (front : Str) (c x y e : Char) (es : Str) (enforce : Bool) (hc : IsSyllableOf c x y ' ') (he : e ∈ ['ㄴ', 'ㄹ', 'ㅂ', 'ㅆ'])
    (forms : List Str) (h : conjugate (front ++ [c]) (e :: es) enforce = .ok forms) (s : Str) (hs : s ∈ forms)
    (out : List Str) (ho : conjugateStem (front ++ [c]) = .ok out) (hq : c = '르' → ∀ q, front.getLast? = some q → Syllable q) :
    ∃ t ∈ out, t <+: s := by
  obtain ⟨out', ho', hm⟩ := conjugateStem_ok hc hq
  rw [ho] at ho'; cases ho'
  have hcons : Consonant e := by
    simp only [List.mem_cons, List.not_mem_nil, or_false] at he
    rcases he with rfl | rfl | rfl | rfl <;> (unfold Consonant; decide)
  have hneq : e ≠ 'ㅇ' := by rintro rfl; exact absurd he (by decide)
  cases (C57_bare front c x y ' ' e es enforce hc hcons forms h s).1 hs with
  | final c' h1 h2 => exact ⟨front ++ [c'], (hm _).2 (.open c' e rfl he h2), by simp [List.prefix_append_right_inj]⟩
  | d c' h1 => exact absurd h1 hneq
  | dKeep h1 => exact absurd h1 hneq
  | drop c' h1 => exact absurd h1 hneq
  | beot h1 => exact absurd h1 hneq
  | euDrop h1 => exact absurd h1 hneq
example : "입니다".toList ∈ (conjugate "이".toList "ㅂ니다".toList).toOption.getD [] ∧ "입".toList ∈ (conjugateStem "이".toList).toOption.getD [] := by decide +kernel

end Props
