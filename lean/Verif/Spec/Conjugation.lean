import Verif.Spec.Jamo
/-!
The forms `conjugate` gives for a stem and an ending, rule by rule, in terms of letters.
The stem is `front ++ [c]` where `c` is the syllable `x y z`; the ending is `e :: es` where `e` is the syllable `i v w`.
-/
namespace Spec

/-- a form of one of the special rules of soynlp/lemmatizer/_conjugation.py -/
inductive Irregular (front : List Char) (c x y z e i v w : Char) (es : List Char) : List Char → Prop
  /-- 이 + 다 -> 이다: endings that begin with 다 are appended -/
  | da : e = '다' → Irregular front c x y z e i v w es (front ++ c :: e :: es)
  /-- 깨닫 + 아 -> 깨달아 -/
  | d (c' : Char) : z = 'ㄷ' → i = 'ㅇ' → IsSyllableOf c' x y 'ㄹ' → Irregular front c x y z e i v w es (front ++ c' :: e :: es)
  /-- 받 + 아 -> 받아 -/
  | dKeep : z = 'ㄷ' → i = 'ㅇ' → Irregular front c x y z e i v w es (front ++ c :: e :: es)
  /-- 구르 + 어 -> 굴러; not for 푸르 -/
  | reu (p : List Char) (q q0 q1 q2 q' r : Char) : c = '르' → front = p ++ [q] → q ≠ '푸' → i = 'ㅇ' → v = 'ㅏ' ∨ v = 'ㅓ' →
      IsSyllableOf q q0 q1 q2 → IsSyllableOf q' q0 q1 'ㄹ' → IsSyllableOf r 'ㄹ' v w →
      Irregular front c x y z e i v w es (p ++ q' :: r :: es)
  /-- 더럽 + 어 -> 더러워, 아름답 + 아 -> 아름다워 -/
  | bWo (c' r : Char) : z = 'ㅂ' → i = 'ㅇ' → (v = 'ㅓ' ∨ (v = 'ㅏ' ∧ front ≠ [] ∧ c ∈ ['답', '곱', '깝', '롭'])) →
      IsSyllableOf c' x y ' ' → IsSyllableOf r 'ㅇ' 'ㅝ' w → Irregular front c x y z e i v w es (front ++ c' :: r :: es)
  /-- 돕 + 아 -> 도와 -/
  | bWa (c' r : Char) : z = 'ㅂ' → i = 'ㅇ' → v = 'ㅏ' → ¬ (front ≠ [] ∧ c ∈ ['답', '곱', '깝', '롭']) →
      IsSyllableOf c' x y ' ' → IsSyllableOf r 'ㅇ' 'ㅘ' w → Irregular front c x y z e i v w es (front ++ c' :: r :: es)
  /-- 돕 + 울까 -> 도울까 -/
  | bDrop (c' : Char) : z = 'ㅂ' → i = 'ㅇ' → v ≠ 'ㅏ' → v ≠ 'ㅓ' → IsSyllableOf c' x y ' ' →
      Irregular front c x y z e i v w es (front ++ c' :: e :: es)
  /-- 붓 + 어 -> 부어 -/
  | s (c' : Char) : z = 'ㅅ' → i = 'ㅇ' → c ≠ '벗' → IsSyllableOf c' x y ' ' → Irregular front c x y z e i v w es (front ++ c' :: e :: es)
  /-- 벗 + 어 -> 벗어 -/
  | beot : i = 'ㅇ' → c = '벗' → Irregular front c x y z e i v w es (front ++ c :: e :: es)
  /-- 푸 + 어 -> 퍼 (the ending's first syllable is dropped with its final) -/
  | pu : c = '푸' → i = 'ㅇ' → v = 'ㅓ' → Irregular front c x y z e i v w es (front ++ '퍼' :: es)
  /-- 주 + 어 -> 줘 -/
  | u (c' : Char) : y = 'ㅜ' → z = ' ' → c ≠ '푸' → i = 'ㅇ' → v = 'ㅓ' → IsSyllableOf c' x 'ㅝ' w →
      Irregular front c x y z e i v w es (front ++ c' :: es)
  /-- 오 + 았어 -> 왔어 -/
  | o (c' : Char) : y = 'ㅗ' → z = ' ' → i = 'ㅇ' → v = 'ㅏ' → IsSyllableOf c' x 'ㅘ' w → Irregular front c x y z e i v w es (front ++ c' :: es)
  /-- 따르 + 아 (stems that end in 으 lose it) -/
  | euDrop : c = '으' → front ≠ [] → i = 'ㅇ' → Irregular front c x y z e i v w es (front ++ e :: es)
  /-- 끄 + 어 -> 꺼; not for 르 -/
  | eu (c' : Char) : y = 'ㅡ' → z = ' ' → i = 'ㅇ' → c ≠ '르' → ¬ (c = '으' ∧ front ≠ []) → IsSyllableOf c' x v w →
      Irregular front c x y z e i v w es (front ++ c' :: es)
  /-- 돌아오 + 아라 -> 돌아와라 -/
  | raO : e = '어' ∨ e = '아' → es.head? = some '라' → c = '오' → Irregular front c x y z e i v w es (front ++ '와' :: es)
  /-- 그리우 + 어라 -> 그리워라 -/
  | raU : e = '어' ∨ e = '아' → es.head? = some '라' → c = '우' → Irregular front c x y z e i v w es (front ++ '워' :: es)
  /-- 가 + 아라 -> 가라 -/
  | raGa : e = '어' ∨ e = '아' → es.head? = some '라' → c = '가' → Irregular front c x y z e i v w es (front ++ c :: es)
  /-- 먹 + 어라: 어라 after a stem with the vowel ㅓ, ㅕ, ㅜ or ㅠ -/
  | raEo : e = '어' ∨ e = '아' → es.head? = some '라' → c ≠ '우' → y ∈ ['ㅓ', 'ㅕ', 'ㅜ', 'ㅠ'] →
      Irregular front c x y z e i v w es (front ++ c :: '어' :: es)
  /-- 잡 + 아라: 아라 after any other stem -/
  | raA : e = '어' ∨ e = '아' → es.head? = some '라' → c ≠ '오' → c ≠ '가' → y ∉ ['ㅓ', 'ㅕ', 'ㅜ', 'ㅠ'] →
      Irregular front c x y z e i v w es (front ++ c :: '아' :: es)
  /-- 이르 + 어 -> 이르러; not for 구르 -/
  | reo (r : Char) : c = '르' → front.getLast? ≠ some '구' → i = 'ㅇ' → v = 'ㅓ' → IsSyllableOf r 'ㄹ' 'ㅓ' w →
      Irregular front c x y z e i v w es (front ++ c :: r :: es)
  /-- 하 + 았다 -> 하였다 -/
  | yeo (r : Char) : c = '하' → i = 'ㅇ' → v = 'ㅏ' ∨ v = 'ㅓ' → IsSyllableOf r 'ㅇ' 'ㅕ' w → Irregular front c x y z e i v w es (front ++ c :: r :: es)
  /-- 하 + 았다 -> 했다 -/
  | hae (c' : Char) : c = '하' → i = 'ㅇ' → v = 'ㅏ' ∨ v = 'ㅓ' → IsSyllableOf c' 'ㅎ' 'ㅐ' w → Irregular front c x y z e i v w es (front ++ c' :: es)
  /-- 파랗 + 면 -> 파라면 -/
  | hDrop (c' : Char) : z = 'ㅎ' → c ≠ '좋' → c ≠ '놓' → IsSyllableOf c' x y ' ' → Irregular front c x y z e i v w es (front ++ c' :: e :: es)
  /-- 좋 + 아 -> 좋아 -/
  | hKeep : c = '좋' ∨ c = '놓' → Irregular front c x y z e i v w es (front ++ c :: e :: es)
  /-- 파랗 + 았다 -> 파랬다 -/
  | hMergeA (c' : Char) : z = 'ㅎ' → c ≠ '좋' → i = 'ㅇ' → v = 'ㅏ' → IsSyllableOf c' x 'ㅐ' w → Irregular front c x y z e i v w es (front ++ c' :: es)
  /-- 시퍼렇 + 었다 -> 시퍼렜다; whatever the initial consonant of the ending: 파랗 + 더라 -> 파레라 -/
  | hMergeE (c' : Char) : z = 'ㅎ' → c ≠ '좋' → v = 'ㅓ' → IsSyllableOf c' x 'ㅔ' w → Irregular front c x y z e i v w es (front ++ c' :: es)
  /-- 파랗 + 네 -> 파랗네 -/
  | hNe : z = 'ㅎ' → i = 'ㄴ' → Irregular front c x y z e i v w es (front ++ c :: e :: es)
  /-- 만지 + 어서 -> 만져서 -/
  | iYeo (c' : Char) : y = 'ㅣ' → z = ' ' → i = 'ㅇ' → v = 'ㅓ' → IsSyllableOf c' x 'ㅕ' w → Irregular front c x y z e i v w es (front ++ c' :: es)
  /-- 만지 + 어서 -> 만지어서 -/
  | iKeep : y = 'ㅣ' → z = ' ' → i = 'ㅇ' → v = 'ㅓ' → Irregular front c x y z e i v w es (front ++ c :: e :: es)

/-- the form used when no special rule applies: 가 + 았다 -> 갔다 when the vowels agree, else the two strings joined -/
inductive Regular (front : List Char) (c x y z e i v w : Char) (es : List Char) : List Char → Prop
  | merge (c' : Char) : z = ' ' → i = 'ㅇ' → v = y → IsSyllableOf c' x y w → Regular front c x y z e i v w es (front ++ c' :: es)
  | join : ¬ (z = ' ' ∧ i = 'ㅇ' ∧ v = y) → Regular front c x y z e i v w es (front ++ c :: e :: es)

/-- the forms for an ending that begins with the bare consonant `e`: 이 + ㅂ니다 -> 입니다. A bare ㅇ, which is no final, is treated
    as if it were the initial of a syllable. -/
inductive BareForm (front : List Char) (c x y z e : Char) (es : List Char) : List Char → Prop
  | final (c' : Char) : e ∈ ['ㄴ', 'ㄹ', 'ㅁ', 'ㅂ', 'ㅆ'] → IsSyllableOf c' x y e → BareForm front c x y z e es (front ++ c' :: es)
  | d (c' : Char) : e = 'ㅇ' → z = 'ㄷ' → IsSyllableOf c' x y 'ㄹ' → BareForm front c x y z e es (front ++ c' :: e :: es)
  | dKeep : e = 'ㅇ' → z = 'ㄷ' → BareForm front c x y z e es (front ++ c :: e :: es)
  | drop (c' : Char) : e = 'ㅇ' → z = 'ㅂ' ∨ (z = 'ㅅ' ∧ c ≠ '벗') → IsSyllableOf c' x y ' ' → BareForm front c x y z e es (front ++ c' :: e :: es)
  | beot : e = 'ㅇ' → c = '벗' → BareForm front c x y z e es (front ++ c :: e :: es)
  | euDrop : e = 'ㅇ' → c = '으' → front ≠ [] → BareForm front c x y z e es (front ++ e :: es)

/-- the strings a conjugated form of the stem `front ++ [c]` may begin with, according to `_conjugate_stem` -/
inductive StemSurface (front : List Char) (c x y z : Char) : List Char → Prop
  | self : StemSurface front c x y z (front ++ [c])
  /-- 깨닫: 깨달 -/
  | d (c' : Char) : z = 'ㄷ' → IsSyllableOf c' x y 'ㄹ' → StemSurface front c x y z (front ++ [c'])
  /-- 구르: 굴 -/
  | reu (p : List Char) (q q0 q1 q2 q' : Char) : c = '르' → front = p ++ [q] → IsSyllableOf q q0 q1 q2 → IsSyllableOf q' q0 q1 'ㄹ' →
      StemSurface front c x y z (p ++ [q'])
  /-- 더럽: 더러; 붓: 부, but not 벗 -/
  | drop (c' : Char) : z = 'ㅂ' ∨ (z = 'ㅅ' ∧ c ≠ '벗') → IsSyllableOf c' x y ' ' → StemSurface front c x y z (front ++ [c'])
  /-- 가: 간, 갈, 갑, 갔 -/
  | open (c' w : Char) : z = ' ' → w ∈ ['ㄴ', 'ㄹ', 'ㅂ', 'ㅆ'] → IsSyllableOf c' x y w → StemSurface front c x y z (front ++ [c'])
  /-- 주: 줘, 줬; not 푸 -/
  | u (c' w : Char) : y = 'ㅜ' → z = ' ' → c ≠ '푸' → w ∈ [' ', 'ㅆ'] → IsSyllableOf c' x 'ㅝ' w → StemSurface front c x y z (front ++ [c'])
  /-- 오: 와, 왔 -/
  | o (c' w : Char) : y = 'ㅗ' → z = ' ' → w ∈ [' ', 'ㅆ'] → IsSyllableOf c' x 'ㅘ' w → StemSurface front c x y z (front ++ [c'])
  /-- 끄: 꺼, 껐 -/
  | eu (c' w : Char) : y = 'ㅡ' → z = ' ' → w ∈ [' ', 'ㅆ'] → IsSyllableOf c' x 'ㅓ' w → StemSurface front c x y z (front ++ [c'])
  /-- a stem that ends in 으, without it -/
  | euDrop : c = '으' → front ≠ [] → StemSurface front c x y z front
  /-- 하: 해, 했 -/
  | ha (c' : Char) : c = '하' → c' ∈ ['해', '했'] → StemSurface front c x y z (front ++ [c'])
  /-- 파랗: 파라, 파란, 파랄, 파랐; not 좋 -/
  | hDrop (c' w : Char) : z = 'ㅎ' → c ≠ '좋' → w ∈ [' ', 'ㄴ', 'ㄹ', 'ㅆ'] → IsSyllableOf c' x y w → StemSurface front c x y z (front ++ [c'])
  /-- 파랗: 파랬; not 좋 -/
  | hMerge (c' : Char) : z = 'ㅎ' → c ≠ '좋' → IsSyllableOf c' x 'ㅐ' 'ㅆ' → StemSurface front c x y z (front ++ [c'])
  /-- 만지: 만졌 -/
  | i (c' : Char) : y = 'ㅣ' → z = ' ' → IsSyllableOf c' x 'ㅕ' 'ㅆ' → StemSurface front c x y z (front ++ [c'])

/-- the dark counterpart of a bright vowel -/
inductive DarkOf : Char → Char → Prop
  | a : DarkOf 'ㅏ' 'ㅓ'
  | ya : DarkOf 'ㅑ' 'ㅕ'
  | o : DarkOf 'ㅗ' 'ㅜ'
  | yo : DarkOf 'ㅛ' 'ㅠ'

def Bright (v : Char) : Prop := ∃ u, DarkOf v u
def Dark (v : Char) : Prop := ∃ u, DarkOf u v

/-- `v'` is the vowel vowel harmony gives the ending whose first syllable has initial `i` and vowel `v`, after a stem whose last
    syllable has vowel `y` and final `z` -/
inductive HarmonyVowel (y z i v : Char) : Char → Prop
  /-- a bright stem not ending in ㅂ makes a dark ending bright -/
  | brighten (v' : Char) : z ≠ 'ㅂ' → Bright y → i = 'ㅇ' → DarkOf v' v → HarmonyVowel y z i v v'
  /-- a dark stem not ending in ㅂ makes a bright ending dark -/
  | darken (v' : Char) : z ≠ 'ㅂ' → Dark y → i = 'ㅇ' → DarkOf v v' → HarmonyVowel y z i v v'
  /-- ㅡ and ㅣ make every bright ending dark -/
  | neuter (v' : Char) : y = 'ㅡ' ∨ y = 'ㅣ' → DarkOf v v' → HarmonyVowel y z i v v'
  /-- nothing changes otherwise -/
  | keep : ¬ (z ≠ 'ㅂ' ∧ Bright y ∧ i = 'ㅇ' ∧ Dark v) → ¬ (z ≠ 'ㅂ' ∧ Dark y ∧ i = 'ㅇ' ∧ Bright v) →
      ¬ ((y = 'ㅡ' ∨ y = 'ㅣ') ∧ Bright v) → HarmonyVowel y z i v v

end Spec
