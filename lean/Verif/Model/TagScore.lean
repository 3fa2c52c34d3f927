import Mathlib.Analysis.SpecialFunctions.Log.Basic
import Verif.Py.Basic
import Verif.Py.Str
import Verif.Py.Dict
import Verif.Py.Sort

/-!
`LREvaluator` of soynlp/postagger/_lrtagger.py:23-63, the scorer of candidates that carry statistics (cohesion, drop rate, counts). It is not the class
of that name exported by `soynlp.postagger` (that one is in `Verif.Model.Postagger`). The tagger of the same file, `LRMaxScoreTagger`, cannot be
constructed, so it is not modelled. Floating point numbers are real numbers here.
-/

namespace TagScore

open Py

/-- soynlp/postagger/_lrtagger.py:22: the attributes of a `Table` that the evaluator reads -/
structure Cand where
  l : Str
  lTag : Option Str
  r : Str
  rTag : Option Str
  length : Int
  lrProp : ℝ
  lrCount : Int
  cohesion : ℝ
  droprate : ℝ
  lcount : Int

/-- soynlp/postagger/_lrtagger.py:10-19 -/
noncomputable def defaultProfile : Dict Str ℝ :=
  [("cohesion_l".toList, 0.5), ("droprate_l".toList, 0.5), ("log_count_l".toList, 0.1), ("prob_l2r".toList, 0.1), ("log_count_l2r".toList, 0.1),
   ("known_LR".toList, 1), ("R_is_syllable".toList, -0.1), ("log_length".toList, 0.5)]

/-- soynlp/postagger/_lrtagger.py:25-26: `profile if profile else default_profile`; `none` is the default argument -/
noncomputable def init (profile : Option (Dict Str ℝ)) : Dict Str ℝ :=
  match profile with
  | none => defaultProfile
  | some p => if p = [] then defaultProfile else p

/-- `math.log` of an `int` (soynlp/postagger/_lrtagger.py:53,55,58): a `ValueError` outside its domain -/
noncomputable def log (n : Int) : PyM ℝ := if n ≤ 0 then .error .valueError else .ok (Real.log n)

/-- the truth value of a tag: `None` and `''` are false (soynlp/postagger/_lrtagger.py:43,45,56) -/
def truthy : Option Str → Bool
  | none => false
  | some t => decide (t ≠ [])

/-- soynlp/postagger/_lrtagger.py:50-59 with the field names of line 21: `ScoreTable(...)._asdict().items()` -/
noncomputable def scoreTable (c : Cand) : PyM (List (Str × ℝ)) :=
  match log (c.lcount + 1) with
  | .error e => .error e
  | .ok a => match log (c.lrCount + 1) with
    | .error e => .error e
    | .ok b => match log c.length with
      | .error e => .error e
      | .ok d => .ok
        [("cohesion_l".toList, c.cohesion), ("droprate_l".toList, c.droprate), ("log_count_l".toList, a), ("prob_l2r".toList, c.lrProp),
         ("log_count_l2r".toList, b), ("known_LR".toList, if truthy c.lTag && truthy c.rTag then 1 else 0),
         ("R_is_syllable".toList, if c.r.length = 1 then 1 else 0), ("log_length".toList, d)]

/-- soynlp/postagger/_lrtagger.py:62-63 -/
noncomputable def weigh (profile : Dict Str ℝ) (table : List (Str × ℝ)) : ℝ := (table.map (fun e => e.2 * Dict.getD profile e.1 0)).sum

/-- soynlp/postagger/_lrtagger.py:43-46, one of the two `if`s -/
noncomputable def prefer (preference : Dict Str (Dict Str ℝ)) (tag : Option Str) (word : Str) : ℝ :=
  match tag with
  | none => 0
  | some t => if t ≠ [] ∧ t ∈ Dict.keys preference then Dict.getD (Dict.getD preference t []) word 0 else 0

/-- soynlp/postagger/_lrtagger.py:31-47: one candidate; an absent preference is the empty one -/
noncomputable def score (profile : Dict Str ℝ) (preference : Dict Str (Dict Str ℝ)) (c : Cand) : PyM (Cand × ℝ) :=
  match scoreTable c with
  | .error e => .error e
  | .ok t => .ok (c, weigh profile t + prefer preference c.lTag c.l + prefer preference c.rTag c.r)

open Classical in
/-- soynlp/postagger/_lrtagger.py:28-48 -/
noncomputable def evaluate (profile : Dict Str ℝ) (candidates : List Cand) (preference : Dict Str (Dict Str ℝ)) : PyM (List (Cand × ℝ)) :=
  match candidates.mapM (score profile preference) with
  | .error e => .error e
  | .ok scores => .ok (sorted (fun x y : Cand × ℝ => decide (y.2 ≤ x.2)) scores)

end TagScore
