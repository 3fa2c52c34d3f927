import Verif.Spec.Jamo
/-!
The rule pairs of conjugation that lemmatisation undoes: which surface form of a stem and an ending is taken apart again. Everything is by
letters of syllables (`IsSyllableOf c x y z`: `c` has initial `x`, vowel `y`, final `z`, blank for none).
-/
namespace Spec

/-- `Covered stem ending surface`: one of the rules that the lemmatiser knows makes `surface` of `stem` and `ending` -/
inductive Covered : List Char → List Char → List Char → Prop
  /-- regular: nothing changes (먹 + 는다) -/
  | regular (stem ending : List Char) (h : ∀ c ∈ ending, Syllable c) : Covered stem ending (stem ++ ending)
  /-- ㄷ becomes ㄹ before a vowel (깨닫 + 아 = 깨달아) -/
  | d (front : List Char) (c c' : Char) (x y : Char) (e : Char) (es : List Char) (v w : Char) (h : IsSyllableOf c x y 'ㄷ') (h' : IsSyllableOf c' x y 'ㄹ')
      (he : IsSyllableOf e 'ㅇ' v w) : Covered (front ++ [c]) (e :: es) (front ++ c' :: e :: es)
  /-- 르 after an open syllable (구르 + 어 = 굴러) -/
  | reu (front : List Char) (c c' : Char) (x y : Char) (e e' : Char) (es : List Char) (v w : Char) (h : IsSyllableOf c x y ' ') (h' : IsSyllableOf c' x y 'ㄹ')
      (he : IsSyllableOf e 'ㅇ' v w) (he' : IsSyllableOf e' 'ㄹ' v w) (hv : v = 'ㅏ' ∨ v = 'ㅓ') :
      Covered (front ++ [c, '르']) (e :: es) (front ++ c' :: e' :: es)
  /-- ㅂ with 아 / 어 (더럽 + 어서 = 더러워서; the ending keeps its kind of vowel) -/
  | bVowel (front : List Char) (c c' : Char) (x y : Char) (e e' : Char) (es : List Char) (v v' w : Char) (h : IsSyllableOf c x y 'ㅂ') (h' : IsSyllableOf c' x y ' ')
      (he : IsSyllableOf e 'ㅇ' v w) (he' : IsSyllableOf e' 'ㅇ' v' w) (hv : (v = 'ㅓ' ∧ v' = 'ㅝ') ∨ (v = 'ㅏ' ∧ v' = 'ㅘ')) :
      Covered (front ++ [c]) (e :: es) (front ++ c' :: e' :: es)
  /-- ㅂ dropped before another vowel (더럽 + 우니 = 더러우니) -/
  | bDrop (front : List Char) (c c' : Char) (x y : Char) (e : Char) (es : List Char) (v w : Char) (h : IsSyllableOf c x y 'ㅂ') (h' : IsSyllableOf c' x y ' ')
      (he : IsSyllableOf e 'ㅇ' v w) (hv : v ≠ 'ㅝ' ∧ v ≠ 'ㅘ') (hr : es.head? = some '려' → v = 'ㅜ') : Covered (front ++ [c]) (e :: es) (front ++ c' :: e :: es)
  /-- an ending that starts with a bare consonant closes the stem (이 + ㅂ니다 = 입니다) -/
  | attach (front : List Char) (c c' : Char) (x y z s : Char) (es : List Char) (hs : s ∈ ['ㄴ', 'ㄹ', 'ㅁ', 'ㅂ', 'ㅆ']) (h : IsSyllableOf c x y z)
      (hz : z ∈ [' ', 'ㄹ', 'ㅂ', 'ㅎ']) (hne : z ≠ s) (h' : IsSyllableOf c' x y s) : Covered (front ++ [c]) (s :: es) (front ++ c' :: es)
  /-- ㅅ dropped before a vowel (붓 + 어 = 부어) -/
  | s (front : List Char) (c c' : Char) (x y : Char) (e : Char) (es : List Char) (v w : Char) (h : IsSyllableOf c x y 'ㅅ') (h' : IsSyllableOf c' x y ' ')
      (he : IsSyllableOf e 'ㅇ' v w) : Covered (front ++ [c]) (e :: es) (front ++ c' :: e :: es)
  /-- 푸 + 어 = 퍼 -/
  | peo (front es : List Char) : Covered (front ++ ['푸']) ('어' :: es) (front ++ '퍼' :: es)
  /-- ㅜ + ㅓ = ㅝ (주 + 었어 = 줬어) -/
  | u (front : List Char) (c c' : Char) (x : Char) (e : Char) (es : List Char) (w : Char) (h : IsSyllableOf c x 'ㅜ' ' ') (h' : IsSyllableOf c' x 'ㅝ' w)
      (he : IsSyllableOf e 'ㅇ' 'ㅓ' w) : Covered (front ++ [c]) (e :: es) (front ++ c' :: es)
  /-- ㅗ + ㅏ = ㅘ (오 + 았어 = 왔어) -/
  | o (front : List Char) (c c' : Char) (x : Char) (e : Char) (es : List Char) (w : Char) (h : IsSyllableOf c x 'ㅗ' ' ') (h' : IsSyllableOf c' x 'ㅘ' w)
      (he : IsSyllableOf e 'ㅇ' 'ㅏ' w) : Covered (front ++ [c]) (e :: es) (front ++ c' :: es)
  /-- ㅡ dropped (끄 + 어 = 꺼) -/
  | eu (front : List Char) (c c' : Char) (x : Char) (e : Char) (es : List Char) (v w : Char) (hv : v = 'ㅏ' ∨ v = 'ㅓ') (h : IsSyllableOf c x 'ㅡ' ' ')
      (h' : IsSyllableOf c' x v w) (he : IsSyllableOf e 'ㅇ' v w) : Covered (front ++ [c]) (e :: es) (front ++ c' :: es)
  /-- 으 dropped after an open syllable (모으 + 았다 = 모았다) -/
  | euOpen (front : List Char) (c : Char) (x y : Char) (e : Char) (es : List Char) (v w : Char) (hv : v = 'ㅏ' ∨ v = 'ㅓ') (h : IsSyllableOf c x y ' ')
      (he : IsSyllableOf e 'ㅇ' v w) : Covered (front ++ [c, '으']) (e :: es) (front ++ c :: e :: es)
  /-- 하 + 아 = 해 -/
  | ha (front : List Char) (c' : Char) (e : Char) (es : List Char) (w : Char) (h' : IsSyllableOf c' 'ㅎ' 'ㅐ' w) (he : IsSyllableOf e 'ㅇ' 'ㅏ' w) :
      Covered (front ++ ['하']) (e :: es) (front ++ c' :: es)
  /-- ㅎ dropped (파랗 + 면 = 파라면) -/
  | hDrop (front : List Char) (c c' : Char) (x v : Char) (ending : List Char) (hv : v = 'ㅏ' ∨ v = 'ㅓ') (h : IsSyllableOf c x v 'ㅎ') (h' : IsSyllableOf c' x v ' ')
      (he : ∀ c ∈ ending, Syllable c) : Covered (front ++ [c]) ending (front ++ c' :: ending)
  /-- ㅎ merged with 아 / 어 (파랗 + 았다 = 파랬다, 시퍼렇 + 었다 = 시퍼렜다) -/
  | hMerge (front : List Char) (c c' : Char) (x : Char) (e : Char) (es : List Char) (v v' w : Char) (hv : (v = 'ㅏ' ∧ v' = 'ㅐ') ∨ (v = 'ㅓ' ∧ v' = 'ㅔ'))
      (hw : w ∈ [' ', 'ㄴ', 'ㄹ', 'ㅂ', 'ㅆ']) (hf : ¬ (front.getLast? = some '그' ∧ x = 'ㄹ')) (h : IsSyllableOf c x v 'ㅎ') (h' : IsSyllableOf c' x v' w)
      (he : IsSyllableOf e 'ㅇ' v w) : Covered (front ++ [c]) (e :: es) (front ++ c' :: es)
  /-- 그렇 + 아 = 그래 -/
  | hMergeGeu (front : List Char) (c' : Char) (e : Char) (es : List Char) (v v' w : Char) (hv : (v = 'ㅏ' ∧ v' = 'ㅐ') ∨ (v = 'ㅓ' ∧ v' = 'ㅔ'))
      (hw : w ∈ [' ', 'ㄴ', 'ㄹ', 'ㅂ', 'ㅆ']) (h' : IsSyllableOf c' 'ㄹ' v' w) (he : IsSyllableOf e 'ㅇ' v w) :
      Covered (front ++ ['그', '렇']) (e :: es) (front ++ '그' :: c' :: es)
  /-- ㅣ + ㅓ = ㅕ (이 + 었다 = 였다) -/
  | i (front : List Char) (c c' : Char) (x : Char) (e : Char) (es : List Char) (w : Char) (hw : w ∈ [' ', 'ㅅ', 'ㅆ']) (h : IsSyllableOf c x 'ㅣ' ' ')
      (h' : IsSyllableOf c' x 'ㅕ' w) (he : IsSyllableOf e 'ㅇ' 'ㅓ' w) : Covered (front ++ [c]) (e :: es) (front ++ c' :: es)

end Spec
