import Verif.Proofs.ConjExact
/-! C57: the forms `conjugate` gives, exactly. -/
namespace Props
open Py Hangle Spec Lemma

/-- C57: for a stem that ends in a syllable and an ending that begins with a syllable, the forms are exactly those of the irregular
    rules - all of them that apply - and, only if none applies, the regular one. -/
theorem C57_forms (front : Str) (c x y z e i v w : Char) (es : Str) (hc : IsSyllableOf c x y z) (he : IsSyllableOf e i v w)
    (forms : List Str) (h : conjugate (front ++ [c]) (e :: es) = .ok forms) (s : Str) :
    s ∈ forms ↔ Irregular front c x y z e i v w es s ∨ ((∀ t, ¬ Irregular front c x y z e i v w es t) ∧ Regular front c x y z e i v w es s) := by
  obtain ⟨⟨hi, hv, hw⟩, _⟩ := compose_inv (isSyllableOf_iff.1 he)
  obtain ⟨r, hr, _⟩ := compose_ok hi hv blank_jong
  have hr' := isSyllableOf_iff.2 hr
  have hvb : v ≠ ' ' := fun e' => blank_not_jung (e' ▸ hv)
  rw [conjugate_eq_ctx hc he hr'] at h
  rw [mem_ctx_iff h s, rules_iff hc he hr', gives_default]
  refine or_congr Iff.rfl (and_congr ⟨fun hn t ht => hn t ((rules_iff hc he hr' t).2 ht), fun hn t ht => hn t ((rules_iff hc he hr' t).1 ht)⟩ ?_)
  constructor
  · rintro ⟨_, ⟨h1, c', h2, rfl⟩ | ⟨h1, rfl⟩⟩
    · exact .merge c' h1.1 h1.2.1 h1.2.2 h2
    · exact .join h1
  · intro hreg
    refine ⟨hvb, ?_⟩
    cases hreg with
    | merge c' h1 h2 h3 h4 => exact .inl ⟨⟨h1, h2, h3⟩, c', h4, rfl⟩
    | join h1 => exact .inr ⟨h1, rfl⟩

/-- 가 + 았다 has no irregular form, and 갔다 as its only one -/
example : (conjugate "가".toList "았다".toList).toOption = some ["갔다".toList] := by decide +kernel
example : IsSyllableOf '가' 'ㄱ' 'ㅏ' ' ' ∧ IsSyllableOf '았' 'ㅇ' 'ㅏ' 'ㅆ' :=
  ⟨⟨0, 0, 0, by decide, by decide⟩, ⟨11, 0, 20, by decide, by decide⟩⟩
/-- two rules apply to 이르 + 어: 일러 and 이르러 -/
example : (conjugate "이르".toList "어".toList).toOption = some ["일러".toList, "이르러".toList] := by decide +kernel

/-- C57, the ㅎ rule is wider than meant: before any syllable with the vowel ㅓ, whatever its initial, the initial is lost:
    파랗 + 더라 gives 파레라. -/
theorem C57_h_merge_violation (front : Str) (c x y e i w c' : Char) (es : Str) (hc : IsSyllableOf c x y 'ㅎ') (hj : c ≠ '좋')
    (he : IsSyllableOf e i 'ㅓ' w) (hc' : IsSyllableOf c' x 'ㅔ' w) (forms : List Str) (h : conjugate (front ++ [c]) (e :: es) = .ok forms) :
    front ++ c' :: es ∈ forms :=
  (C57_forms front c x y 'ㅎ' e i 'ㅓ' w es hc he forms h _).2 (.inl (.hMergeE c' rfl hj rfl hc'))
example : "파레라".toList ∈ (conjugate "파랗".toList "더라".toList).toOption.getD [] := by decide +kernel

/-- C57: for an ending that begins with a bare consonant, such as ㄴ or ㅂ니다, the forms are exactly these; vowel harmony does not
    matter. -/
theorem C57_bare (front : Str) (c x y z e : Char) (es : Str) (enforce : Bool) (hc : IsSyllableOf c x y z) (he : Consonant e)
    (forms : List Str) (h : conjugate (front ++ [c]) (e :: es) enforce = .ok forms) (s : Str) :
    s ∈ forms ↔ BareForm front c x y z e es s := by
  rw [conjugate_eq_bare enforce hc he] at h
  rw [mem_ctx_iff h s, rules_bare_iff hc he, gives_default]
  constructor
  · rintro (h | ⟨_, h, _⟩)
    · exact h
    · exact absurd rfl h
  · exact .inl
example : (conjugate "이".toList "ㅂ니다".toList true).toOption = some ["입니다".toList] := by decide +kernel
example : Consonant 'ㅂ' := by decide

/-- C57: `conjugate` with vowel harmony gives exactly the forms it gives, without, for the ending whose first vowel has been changed
    as harmony asks - and there is exactly one such ending. -/
theorem C57_harmony (front : Str) (c x y z e i v w : Char) (es : Str) (hc : IsSyllableOf c x y z) (he : IsSyllableOf e i v w) :
    ∃ v' e', HarmonyVowel y z i v v' ∧ IsSyllableOf e' i v' w ∧
      conjugate (front ++ [c]) (e :: es) true = conjugate (front ++ [c]) (e' :: es) false ∧
      ∀ v'', HarmonyVowel y z i v v'' → v'' = v' := by
  obtain ⟨⟨hi, hv, hw⟩, _⟩ := compose_inv (isSyllableOf_iff.1 he)
  obtain ⟨v', hv'⟩ := @harmonyVowel_exists y z i v
  obtain ⟨e', he', _⟩ := compose_ok hi (harmonyVowel_jung hv hv') hw
  exact ⟨v', e', hv', isSyllableOf_iff.2 he', conjugate_harmony hc he hv' (isSyllableOf_iff.2 he'), fun v'' h => harmonyVowel_unique h hv'⟩
/-- 깎 + 어 is taken as 깎 + 아, 먹 + 아 as 먹 + 어 -/
example : (conjugate "깎".toList "어".toList true).toOption = some ["깎아".toList] ∧ (conjugate "먹".toList "아".toList true).toOption = some ["먹어".toList] := by
  decide +kernel

/-- C57: `conjugate_chat` adds, for an ending that begins with a bare consonant, the form in which the consonant becomes the final of the
    stem; an empty ending gives the stem; otherwise nothing changes. -/
theorem C57_chat (front : Str) (c x y z e : Char) (es : Str) (enforce : Bool) (hc : IsSyllableOf c x y z) (forms : List Str)
    (h : conjugateChat (front ++ [c]) (e :: es) enforce = .ok forms) :
    ∃ plain, conjugate (front ++ [c]) (e :: es) enforce = .ok plain ∧
      ∀ s, s ∈ forms ↔ s ∈ plain ∨ (Consonant e ∧ ∃ c', IsSyllableOf c' x y e ∧ s = front ++ c' :: es) := by
  unfold conjugateChat at h
  dsimp only at h
  cases hp : conjugate (front ++ [c]) (e :: es) enforce with
  | error err => rw [hp] at h; cases h
  | ok plain =>
    rw [hp] at h
    dsimp only at h
    rw [List.getLast?_concat] at h
    dsimp only at h
    rw [isSyllableOf_decompose hc] at h
    dsimp only at h
    refine ⟨plain, rfl, fun s => ?_⟩
    cases hd : decomposeList e with
    | error err => rw [hd] at h; cases h
    | ok rf =>
      rw [hd] at h
      dsimp only at h
      cases hj : chatJong (front ++ [c]) (e :: es) (x, y, z) rf with
      | error err => rw [hj] at h; cases h
      | ok more =>
        rw [hj] at h
        have := Except.ok.inj h
        subst this
        rw [List.mem_append]
        refine or_congr Iff.rfl ?_
        unfold chatJong at hj
        have hm : s ∈ more ↔ (rf.2.1 = ' ' ∧ rf.1 ≠ ' ') ∧ ∃ c', IsSyllableOf c' x y rf.1 ∧ s = front ++ c' :: es := by
          have := @mem_ite (rf.2.1 = ' ' ∧ rf.1 ≠ ' ') _ ((compose x y rf.1).map (fun c' => [(front ++ [c]).dropLast ++ c' :: tail1 (e :: es)])) s
          rw [hj, mem_ok, mem_compose] at this
          rw [this]
          simp [tail1]
        rw [hm]
        rcases decomposeList_korean hd with hk | hk | hk
        · have hL := decomposeList_inv_letters hd hk
          constructor
          · rintro ⟨⟨hb, _⟩, _⟩; exact absurd (hb ▸ hL.jung) blank_not_jung
          · rintro ⟨hk', _⟩; exfalso; unfold Syllable at hk; unfold Consonant at hk'; omega
        · rw [decomposeList_consonant hk] at hd; cases hd
          constructor
          · rintro ⟨_, hc'⟩; exact ⟨hk, hc'⟩
          · rintro ⟨_, hc'⟩; exact ⟨⟨rfl, (consonant_ne hk).2.2⟩, hc'⟩
        · rw [decomposeList_vowel hk] at hd; cases hd
          constructor
          · rintro ⟨⟨_, hb⟩, _⟩; exact absurd rfl hb
          · rintro ⟨hk', _⟩; exfalso; unfold Vowel at hk; unfold Consonant at hk'; omega
example : (conjugateChat "이니".toList "ㅎ".toList).toOption = some ["이닣".toList] := by decide +kernel

/-- C57: `conjugate_chat` of an empty ending is the stem, whatever the stem. -/
theorem C57_chat_empty (stem : Str) (enforce : Bool) : conjugateChat stem [] enforce = .ok [stem] := rfl

end Props
