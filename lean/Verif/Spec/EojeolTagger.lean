/-! Specification of what the eojeol tagger chooses with its default weights and templates (property C87). Independent of the model: `D tag word` says
    that the dictionary has `word` under `tag`. -/
namespace Spec.EojeolTagger

abbrev noun : List Char := "Noun".toList
abbrev josa : List Char := "Josa".toList
abbrev verb : List Char := "Verb".toList
abbrev adjective : List Char := "Adjective".toList
abbrev adverb : List Char := "Adverb".toList
abbrev exclamation : List Char := "Exclamation".toList

/-- `e` is a word with tag `lt` followed by a word with tag `rt` -/
def Split (D : List Char → List Char → Prop) (e l r lt rt : List Char) : Prop := e = l ++ r ∧ l ≠ [] ∧ r ≠ [] ∧ D lt l ∧ D rt r

/-- `w` is the shortest word with property `P` at the beginning of `text` -/
def ShortestWord (P : List Char → Prop) (text w : List Char) : Prop :=
  w ≠ [] ∧ w <+: text ∧ P w ∧ ∀ v, v ≠ [] → v <+: text → P v → w.length ≤ v.length

/-- `ws` cuts the text into words, each time the shortest one possible -/
inductive Chain (P : List Char → Prop) : List Char → List (List Char) → Prop
  | nil : Chain P [] []
  | cons {w rest : List Char} {ws : List (List Char)} : ShortestWord P (w ++ rest) w → Chain P rest ws → Chain P (w ++ rest) (w :: ws)

/-- the text is cut in this way into at least two words -/
def Compound (P : List Char → Prop) (text : List Char) (ws : List (List Char)) : Prop := Chain P text ws ∧ 2 ≤ ws.length

/-- tags that a whole eojeol can have -/
def Single (t : List Char) : Prop := t = noun ∨ t = verb ∨ t = adjective ∨ t = adverb ∨ t = exclamation

/-- a noun followed by a verb or an adjective -/
def NounPred (D : List Char → List Char → Prop) (e l r t : List Char) : Prop := (t = verb ∨ t = adjective) ∧ Split D e l r noun t

/-- **the choice for one eojeol**, in order of priority. `tags` lists the tags of the dictionary in its order. -/
inductive Choice (D : List Char → List Char → Prop) (tags : List (List Char)) (e : List Char) : List (List Char × Option (List Char)) → Prop
  /-- 1. the eojeol is a noun -/
  | noun (h : D noun e) : Choice D tags e [(e, some noun)]
  /-- 2. noun + josa, with the shortest noun -/
  | nounJosa (l r : List Char) (h1 : ¬ D noun e) (h : Split D e l r noun josa) (hmin : ∀ l' r', Split D e l' r' noun josa → l.length ≤ l'.length) :
      Choice D tags e [(l, some noun), (r, some josa)]
  /-- 3. noun + verb or adjective, with the shortest noun; a verb before an adjective -/
  | nounPred (l r t : List Char) (h1 : ¬ D noun e) (h2 : ∀ l r, ¬ Split D e l r noun josa) (h : NounPred D e l r t)
      (hmin : ∀ l' r' t', NounPred D e l' r' t' → l.length ≤ l'.length) (hverb : t = adjective → ¬ D verb r) :
      Choice D tags e [(l, some noun), (r, some t)]
  /-- 4. the eojeol under its first other tag -/
  | single (t : List Char) (before after : List (List Char)) (h1 : ¬ D noun e) (h2 : ∀ l r, ¬ Split D e l r noun josa) (h3 : ∀ l r t, ¬ NounPred D e l r t)
      (ht : tags = before ++ t :: after) (hb : ∀ u ∈ before, Single u → ¬ D u e) (hs : Single t) (hd : D t e) :
      Choice D tags e [(e, some t)]
  /-- 5. two adverbs -/
  | twoAdverbs (a b : List Char) (h2 : ∀ l r, ¬ Split D e l r noun josa) (h3 : ∀ l r t, ¬ NounPred D e l r t) (h4 : ∀ t, Single t → ¬ D t e)
      (h : Compound (D adverb) e [a, b]) : Choice D tags e [(a, some adverb), (b, some adverb)]
  /-- 6. two nouns -/
  | twoNouns (a b : List Char) (h2 : ∀ l r, ¬ Split D e l r noun josa) (h3 : ∀ l r t, ¬ NounPred D e l r t) (h4 : ∀ t, Single t → ¬ D t e)
      (h5 : ∀ a b, ¬ Compound (D adverb) e [a, b]) (h : Compound (D noun) e [a, b]) : Choice D tags e [(a, some noun), (b, some noun)]
  /-- 7. three adverbs -/
  | threeAdverbs (a b c : List Char) (h2 : ∀ l r, ¬ Split D e l r noun josa) (h3 : ∀ l r t, ¬ NounPred D e l r t) (h4 : ∀ t, Single t → ¬ D t e)
      (h6 : ∀ a b, ¬ Compound (D noun) e [a, b]) (h : Compound (D adverb) e [a, b, c]) :
      Choice D tags e [(a, some adverb), (b, some adverb), (c, some adverb)]
  /-- 8. otherwise the eojeol without a tag — also when it is a compound of three or more nouns, or of four or more adverbs -/
  | unknown (h2 : ∀ l r, ¬ Split D e l r noun josa) (h3 : ∀ l r t, ¬ NounPred D e l r t) (h4 : ∀ t, Single t → ¬ D t e)
      (h6 : ∀ a b, ¬ Compound (D noun) e [a, b]) (h7 : ∀ ws, Compound (D adverb) e ws → 4 ≤ ws.length) : Choice D tags e [(e, none)]

end Spec.EojeolTagger
