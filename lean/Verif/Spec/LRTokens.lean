import Verif.Model.MaxLR
/-!
Specification of the choice `MaxLRScoreTokenizer` makes inside one eojeol `t`, in terms of spans. A span `(i, j, k)` stands for the left word
`t[i:j]` followed by the right word `t[j:k]` (no right word if `j = k`). Nothing here refers to the steps of the algorithm; only the dictionaries and
thresholds of the tokenizer are used.
-/
namespace LRSpec
open Py MaxLR

abbrev Span := Nat × Nat × Nat

variable (g : Config) (t : Str)

/-- the left and the right word of a span -/
def lword (s : Span) : Str := slice t s.1 s.2.1
def rword (s : Span) : Str := slice t s.2.1 s.2.2
/-- their scores -/
def lsc (s : Span) : Rat := Dict.getD g.Dl (lword t s) 0
def rsc (s : Span) : Rat := Dict.getD g.Dr (rword t s) 0

/-- the spans considered: a known left word, then nothing or a known right word, but no single letter on its own -/
structure IsCand (s : Span) : Prop where
  h1 : s.1 < s.2.1
  h2 : s.2.1 ≤ s.2.2
  h3 : s.2.2 ≤ t.length
  left : Dict.has g.Dl (lword t s) = true
  right : s.2.1 < s.2.2 → Dict.has g.Dr (rword t s) = true
  long : s.2.1 = s.2.2 → s.2.1 ≠ s.1 + 1

/-- spans end, begin and divide earlier -/
def Earlier (a b : Span) : Prop := a.2.2 < b.2.2 ∨ a.2.2 = b.2.2 ∧ (a.1 < b.1 ∨ a.1 = b.1 ∧ a.2.1 < b.2.1)

/-- `a` has the higher left score, or the same and comes earlier -/
def Above (a b : Span) : Prop := lsc g t b < lsc g t a ∨ lsc g t b = lsc g t a ∧ Earlier a b

/-- the left word of `d` strictly contains that of `s` -/
def Around (s d : Span) : Prop := d.1 ≤ s.1 ∧ s.2.1 ≤ d.2.1 ∧ (d.1 < s.1 ∨ s.2.1 < d.2.1)

/-- the left word of `d` strictly contains that of `s` and scores nearly as well, by difference or (for a good `s`) by ratio -/
def Longer (s d : Span) : Prop :=
  Around s d ∧ (lsc g t s - lsc g t d < g.maxLDiff ∨
    g.ensL * (1/2) < lsc g t s ∧ lsc g t d ≠ -(1/100000) ∧ (lsc g t s + 1/100000) / (lsc g t d + 1/100000) < g.maxLRatio)

/-- ... or the ratio is asked for and does not exist -/
def NoRatio (s d : Span) : Prop := Around s d ∧ ¬ lsc g t s - lsc g t d < g.maxLDiff ∧ g.ensL * (1/2) < lsc g t s ∧ lsc g t d = -(1/100000)

/-- the eojeol leads to a division by zero: some span is compared by ratio with a lower-ranking one whose left score is −0.00001, before a longer word is found -/
def DividesByZero : Prop := ∃ s d, IsCand g t s ∧ IsCand g t d ∧ Above g t s d ∧ NoRatio g t s d ∧
  ¬ ∃ d', IsCand g t d' ∧ Above g t s d' ∧ Above g t d' d ∧ Longer g t s d'

/-- spans for which no lower-ranking span has such a longer left word -/
def Kept (s : Span) : Prop := IsCand g t s ∧ ¬ ∃ d, IsCand g t d ∧ Above g t s d ∧ Longer g t s d

/-- the order in which right words are examined: by left score, right score, beginning, length of the left word, end -/
def Before (a b : Span) : Prop :=
  lsc g t b < lsc g t a ∨ lsc g t b = lsc g t a ∧ (rsc g t b < rsc g t a ∨ rsc g t b = rsc g t a ∧
    (a.1 < b.1 ∨ a.1 = b.1 ∧ (b.2.1 < a.2.1 ∨ b.2.1 = a.2.1 ∧ a.2.2 < b.2.2)))

/-- the right word of `s` runs into a left word `w` that is good in itself, or clearly better than the right word. The value `v` of `w` is its left
    score, but its right score once `w` has been passed. -/
def RunsInto (passed : Prop) (s w : Span) : Prop :=
  s.2.1 ≤ w.1 ∧ w.1 < s.2.2 ∧ ∃ v : Rat, (passed ∧ v = rsc g t w ∨ ¬ passed ∧ v = lsc g t w) ∧
    (g.ensL ≤ v ∨ g.ensLRDiff < v + Dict.getD g.Pl (lword t w) 0 - rsc g t s)

/-- `S` are the spans that pass: kept, and without right word or running into no kept span -/
def Passing (S : Span → Prop) : Prop :=
  ∀ s, S s ↔ Kept g t s ∧ (s.2.1 < s.2.2 → ¬ ∃ w, Kept g t w ∧ RunsInto g t (S w ∧ Before g t w s) s w)

/-- the value of a span: the two scores (the left one twice if there is no right word) and the two preferences -/
def value (s : Span) : Rat :=
  (if s.2.1 = s.2.2 then lsc g t s * 2 else lsc g t s + rsc g t s) + Dict.getD g.Pl (lword t s) 0 + Dict.getD g.Pr (rword t s) 0

/-- `a` is worth more than `b`, or as much and examined before -/
def Better (a b : Span) : Prop := value g t b < value g t a ∨ value g t b = value g t a ∧ Before g t a b

/-- `B` are the spans chosen: those passing that overlap no better chosen one -/
def Chosen (S B : Span → Prop) : Prop := ∀ s, B s ↔ S s ∧ ∀ d, B d → Better g t d s → ¬ (d.1 < s.2.2 ∧ s.1 < d.2.2)

/-- the pieces between chosen spans are tokenised with the right words as dictionary; none may be a right word itself -/
def GapTokens (s : Str) (out : List (Str × Tag)) : Prop :=
  ∃ ts, MaxScore.tokenize g.Dr 10 0 s = .ok ts ∧ (∀ w ∈ ts, Dict.has g.Dr w = false) ∧ out = ts.map (fun w => (w, Tag.L))

/-- the tokens of a span -/
def own (s : Span) : List (Str × Tag) := (lword t s, Tag.L) :: if s.2.1 < s.2.2 then [(rword t s, Tag.R)] else []

/-- the tokens from position `a` on, the chosen spans from there being the list. What follows the last span is tokenised from the end of its
    LEFT word. -/
inductive From : Nat → List Span → List (Str × Tag) → Prop
  | last (a : Nat) (s : Span) (gap tail) : GapTokens g (slice t a s.1) gap → GapTokens g (t.drop s.2.1) tail → From a [s] (gap ++ own t s ++ tail)
  | step (a : Nat) (s s' : Span) (ss gap rest) : GapTokens g (slice t a s.1) gap → From s.2.2 (s' :: ss) rest →
      From a (s :: s' :: ss) (gap ++ own t s ++ rest)

/-- the tokens of the eojeol -/
def Tokens (out : List (Str × Tag)) : Prop :=
  ∃ S B, Passing g t S ∧ Chosen g t S B ∧ ∃ ps : List Span, ps.Pairwise (fun a b => a.2.2 ≤ b.1) ∧ (∀ s, s ∈ ps ↔ B s) ∧
    (ps = [] ∧ GapTokens g t out ∨ From g t 0 ps out)

end LRSpec
