import Verif.Props.C29
/-! C123: a `DoublespaceLineCorpus` whose file is rewritten or removed between calls. -/
namespace Props
open Py Corpus

/-- what happens to a corpus: the file is rewritten or removed, the corpus is iterated, its length is asked for -/
inductive FileCall
  | rewrite (text : Str)
  | remove
  | iterate
  | length

/-- what a caller sees -/
inductive FileAnswer
  | nothing
  | items (l : List Str)
  | number (n : Int)
  | raised (e : PyErr)
  deriving DecidableEq

/-- one event on the path and the object: the file is opened anew by each iteration and each count (soynlp/utils/utils.py:112-190) -/
def fileStep (w : Option Str × Obj) : FileCall → FileAnswer × Option Str × Obj
  | .rewrite t => (.nothing, some t, w.2)
  | .remove => (.nothing, none, w.2)
  | .iterate => ((match itemsAt w.1 w.2 with | .ok l => .items l | .error e => .raised e), w)
  | .length => (.number (lenAt w.1 w.2).1, w.1, (lenAt w.1 w.2).2)

/-- a history of events: the answers -/
def fileRun (w : Option Str × Obj) : List FileCall → List FileAnswer
  | [] => []
  | e :: es => (fileStep w e).1 :: fileRun (fileStep w e).2 es

/-- what the corpus yields by default: the stripped documents, or all their sentences -/
def wholeFile (sents : Bool) (docs : List Str) : List Str := if sents then docs.flatMap sentencesOf else docs.map strip

/-- the first `n` elements; all of them for 0 -/
def firstOf (n : Nat) (l : List Str) : List Str := if n = 0 then l else l.take n

/-- the specification: besides the current file there is only a memory of the first successful measurement, (documents, sentences) -/
def fileSpec (sents : Bool) (skip : Nat) : Option Str → Option (Nat × Nat) → List FileCall → List FileAnswer
  | _, _, [] => []
  | _, m, .rewrite t :: es => .nothing :: fileSpec sents skip (some t) m es
  | _, m, .remove :: es => .nothing :: fileSpec sents skip none m es
  | none, m, .iterate :: es => .raised .unboundLocal :: fileSpec sents skip none m es
  | some t, none, .iterate :: es => .items (wholeFile sents (docsOf t skip)) :: fileSpec sents skip (some t) none es
  | some t, some m, .iterate :: es =>
    .items (firstOf (if sents then m.2 else m.1) (wholeFile sents (docsOf t skip))) :: fileSpec sents skip (some t) (some m) es
  | f, some m, .length :: es => .number (if sents then m.2 else m.1) :: fileSpec sents skip f (some m) es
  | none, none, .length :: es => .number 0 :: fileSpec sents skip none none es
  | some t, none, .length :: es =>
    if (fileLines t).length < skip then .number 0 :: fileSpec sents skip (some t) none es
    else if (fileLines t).length = skip then .number (-1) :: fileSpec sents skip (some t) none es
    else .number (wholeFile sents (docsOf t skip)).length ::
      fileSpec sents skip (some t) (some ((docsOf t skip).length, ((docsOf t skip).flatMap sentencesOf).length)) es

private theorem checkGo_all (i n : Nat) (docs : List Str) :
    checkGo (-1) (-1) i n docs = (i + docs.length, n + (docs.flatMap sentencesOf).length) := by
  induction docs generalizing i n with
  | nil => simp [checkGo]
  | cons d ds ih =>
    unfold checkGo
    rw [if_neg (by omega)]
    dsimp only
    rw [if_neg (by omega), ih, sent_count]
    simp only [List.length_cons, List.flatMap_cons, List.length_append, Prod.mk.injEq]
    omega

theorem items_eq (t : Str) (sents : Bool) (skip d s : Nat) :
    items ⟨t, sents, skip, d, s⟩ = firstOf (if sents then s else d) (wholeFile sents (docsOf t skip)) := by
  unfold items wholeFile firstOf
  dsimp only
  rw [afterHeader_eq]
  cases sents with
  | true => rw [if_pos rfl, if_pos rfl, if_pos rfl, iterSents_eq]; rfl
  | false =>
    show iterDocs d 0 (docsOf t skip) = if d = 0 then (docsOf t skip).map strip else ((docsOf t skip).map strip).take d
    rw [iterDocs_eq _ _ _ (by omega)]
    by_cases h : d = 0
    · rw [if_pos h, if_pos h]
    · rw [if_neg h, if_neg h, ← List.map_take]; rfl

theorem len_frozen (t : Str) (sents : Bool) (skip d s : Nat) (hd : d ≠ 0) :
    len ⟨t, sents, skip, d, s⟩ = ((if sents then (s : Int) else (d : Int)), ⟨t, sents, skip, d, s⟩) := by
  unfold len; rw [if_neg hd]

theorem len_open (text : Str) (sents : Bool) (skip : Nat) (h : skip < (fileLines text).length) :
    len ⟨text, sents, skip, 0, 0⟩ = (((wholeFile sents (docsOf text skip)).length : Int),
      ⟨text, sents, skip, (docsOf text skip).length, ((docsOf text skip).flatMap sentencesOf).length⟩) := by
  have hpos : (docsOf text skip).length ≠ 0 := by unfold docsOf; rw [List.length_drop]; omega
  have hc : checkLength text skip (-1) (-1) = .ok ((docsOf text skip).length, ((docsOf text skip).flatMap sentencesOf).length) := by
    have ha : afterHeader text skip = some (docsOf text skip) := by unfold afterHeader; rw [if_neg (by omega)]; rfl
    unfold checkLength
    rw [ha]
    cases hd : docsOf text skip with
    | nil => exact absurd (by rw [hd]; rfl) hpos
    | cons a l => show Except.ok _ = _; rw [checkGo_all]; simp only [Nat.zero_add]
  unfold len; rw [if_pos rfl, hc]; cases sents <;> simp [wholeFile]

private theorem run_frozen (f : Option Str) (t : Str) (sents : Bool) (skip d s : Nat) (hd : d ≠ 0) (es : List FileCall) :
    fileRun (f, ⟨t, sents, skip, d, s⟩) es = fileSpec sents skip f (some (d, s)) es := by
  induction es generalizing f t with
  | nil => rfl
  | cons e es ih =>
    cases e with
    | rewrite t' => simp only [fileRun, fileStep, fileSpec, ih]
    | remove => simp only [fileRun, fileStep, fileSpec, ih]
    | iterate => cases f <;> simp only [fileRun, fileStep, fileSpec, itemsAt, ih, items_eq]
    | length =>
      cases f with
      | none => simp only [fileRun, fileStep, fileSpec, lenAt, if_neg hd, ih]
      | some t' => simp only [fileRun, fileStep, fileSpec, lenAt, len_frozen _ _ _ _ _ hd, ih]

private theorem run_open (f : Option Str) (text0 : Str) (sents : Bool) (skip : Nat) (es : List FileCall) :
    fileRun (f, ⟨text0, sents, skip, 0, 0⟩) es = fileSpec sents skip f none es := by
  induction es generalizing f text0 with
  | nil => rfl
  | cons e es ih =>
    cases e with
    | rewrite t' => simp only [fileRun, fileStep, fileSpec, ih]
    | remove => simp only [fileRun, fileStep, fileSpec, ih]
    | iterate =>
      cases f with
      | none => simp only [fileRun, fileStep, fileSpec, itemsAt, ih]
      | some t =>
        simp only [fileRun, fileStep, fileSpec, itemsAt, ih, items_eq]
        simp [firstOf]
    | length =>
      cases f with
      | none => simp only [fileRun, fileStep, fileSpec, lenAt, if_true, ih]
      | some text =>
      unfold fileRun fileSpec
      by_cases hlt : (fileLines text).length < skip
      · have hl : len ⟨text, sents, skip, 0, 0⟩ = (0, ⟨text, sents, skip, 0, 0⟩) := by
          unfold len checkLength afterHeader; rw [if_pos rfl, if_pos hlt]; cases sents <;> rfl
        rw [if_pos hlt]
        simp only [fileStep, lenAt, hl, ih]
      · rw [if_neg hlt]
        by_cases heq : (fileLines text).length = skip
        · have hd : (fileLines text).drop skip = [] := List.drop_of_length_le (by omega)
          have hl : len ⟨text, sents, skip, 0, 0⟩ = (-1, ⟨text, sents, skip, 0, 0⟩) := by
            unfold len checkLength afterHeader; rw [if_pos rfl, if_neg hlt, hd]
          rw [if_pos heq]
          simp only [fileStep, lenAt, hl, ih]
        · rw [if_neg heq]
          have hpos : (docsOf text skip).length ≠ 0 := by unfold docsOf; rw [List.length_drop]; omega
          have hl := len_open text sents skip (by omega)
          simp only [fileStep, lenAt, hl]
          rw [run_frozen _ _ _ _ _ _ hpos]

/-- **C123** A corpus constructed without limits, under any history of rewritings and removals of its file, iterations and `len`: the
    answers are those of a corpus that re-reads the file at every iteration, and remembers only the first `len` that found a document.
    From then on `len` answers that measurement whatever the file holds, and an iteration is cut to as many documents (sentences) as
    were counted then. While there is no file an iteration raises UnboundLocalError and `len` answers the remembered number, or 0; no corpus can be
    constructed then. -/
theorem C123_history (text : Str) (sents : Bool) (skip : Nat) (numDoc numSent : Int) (h1 : numDoc ≤ 0) (h2 : numSent ≤ 0)
    (es : List FileCall) :
    constructAt none numDoc numSent sents skip = .error .valueError ∧
    ∃ c, constructAt (some text) numDoc numSent sents skip = .ok c ∧ fileRun (some text, c) es = fileSpec sents skip (some text) none es :=
  ⟨rfl, ⟨text, sents, skip, 0, 0⟩, by unfold constructAt Corpus.construct; dsimp only; rw [if_neg (by omega)], run_open _ _ _ _ _⟩

/-- **C123** A corpus constructed with a limit on a file with a document counts at construction: the measurement (`k`
    documents, the number the limits allow) is fixed from the start and every later answer uses it. -/
theorem C123_limits (text : Str) (sents : Bool) (skip : Nat) (numDoc numSent : Int) (hlim : numDoc > 0 ∨ numSent > 0)
    (hne : docsOf text skip ≠ []) (es : List FileCall) :
    ∃ c k, constructAt (some text) numDoc numSent sents skip = .ok c ∧ Counted (docsOf text skip) numDoc numSent k ∧
      fileRun (some text, c) es = fileSpec sents skip (some text)
        (some (k, (cutAt numSent (((docsOf text skip).take k).flatMap sentencesOf)).length)) es := by
  obtain ⟨k, m, h1, h2, h3⟩ := check_counted numDoc numSent _ hne
  have hlt : ¬ (fileLines text).length < skip := fun h => hne (List.drop_of_length_le (by omega))
  have ha : afterHeader text skip = some (docsOf text skip) := by unfold afterHeader; rw [if_neg hlt]; rfl
  have hc : checkLength text skip numDoc numSent = .ok (k, m) := by
    unfold checkLength
    rw [ha, ← h1]
    cases hd : docsOf text skip with
    | nil => exact absurd hd hne
    | cons a l => rfl
  refine ⟨⟨text, sents, skip, k, m⟩, k, ?_, h2, ?_⟩
  · unfold constructAt Corpus.construct; dsimp only; rw [if_pos hlim, hc]
  · rw [run_frozen _ _ _ _ _ _ (by have := h2.1; omega)]
    have hm : m = (cutAt numSent (((docsOf text skip).take k).flatMap sentencesOf)).length := by
      rw [h3]
      unfold cutAt
      split
      · rw [List.length_take]
      · rfl
    rw [hm]

/-- **C123** As long as `len` was not asked for and no limit was given, every iteration yields the whole file as it then is. -/
theorem C123_live (text : Str) (sents : Bool) (skip : Nat) (texts : List Str) :
    ∃ c, constructAt (some text) (-1) (-1) sents skip = .ok c ∧
      fileRun (some text, c) (texts.flatMap (fun t => [.rewrite t, .iterate])) =
        texts.flatMap (fun t => [.nothing, .items (wholeFile sents (docsOf t skip))]) := by
  obtain ⟨_, c, hc, hr⟩ := C123_history text sents skip (-1) (-1) (by decide) (by decide) (texts.flatMap (fun t => [.rewrite t, .iterate]))
  refine ⟨c, hc, hr.trans ?_⟩
  clear hr hc
  induction texts generalizing text with
  | nil => rfl
  | cons t ts ih =>
    have := ih t
    simp only [List.flatMap_cons, List.cons_append, List.nil_append, fileSpec, this]

/-- **C123** Asking for the length of a file with a document fixes it: after the file is rewritten, the length is still the old one and the
    iteration over documents stops at the old number of them, so it yields `min` of the two. -/
theorem C123_stale (text text' : Str) (skip : Nat) (hne : docsOf text skip ≠ []) :
    ∃ c, constructAt (some text) (-1) (-1) false skip = .ok c ∧
      fileRun (some text, c) [.length, .rewrite text', .length, .iterate] =
        [.number (docsOf text skip).length, .nothing, .number (docsOf text skip).length,
          .items (((docsOf text' skip).take (docsOf text skip).length).map strip)] := by
  obtain ⟨_, c, hc, hr⟩ := C123_history text false skip (-1) (-1) (by decide) (by decide) [.length, .rewrite text', .length, .iterate]
  refine ⟨c, hc, hr.trans ?_⟩
  have hl : skip < (fileLines text).length := by
    rcases Nat.lt_or_ge skip (fileLines text).length with h | h
    · exact h
    · exact absurd (List.drop_of_length_le h) hne
  have hpos : (docsOf text skip).length ≠ 0 := fun h => hne (List.length_eq_zero_iff.1 h)
  simp only [fileSpec]
  rw [if_neg (by omega), if_neg (by omega)]
  simp [wholeFile, firstOf, hpos, List.map_take]

/-- a file of one document measured, then grown to two: the second document is never seen; without the measurement it is -/
example : ∃ c, constructAt (some "a b\n".toList) (-1) (-1) false 0 = .ok c ∧
    fileRun (some "a b\n".toList, c) [.length, .rewrite "a b\nc\n".toList, .length, .iterate] =
      [.number 1, .nothing, .number 1, .items ["a b".toList]] ∧
    fileRun (some "a b\n".toList, c) [.rewrite "a b\nc\n".toList, .iterate, .length] = [.nothing, .items ["a b".toList, "c".toList], .number 2] := by
  refine ⟨⟨"a b\n".toList, false, 0, 0, 0⟩, ?_, ?_, ?_⟩ <;> decide +kernel

/-- a header longer than the file answers 0 and an empty rest -1, and neither is remembered -/
example : ∃ c, constructAt (some "h\n".toList) (-1) (-1) true 2 = .ok c ∧
    fileRun (some "h\n".toList, c) [.length, .rewrite "h\nh\n".toList, .length, .rewrite "h\nh\na  b\n".toList, .length, .rewrite "h\nh\nc  d  e\n".toList, .iterate] =
      [.number 0, .nothing, .number (-1), .nothing, .number 2, .nothing, .items ["c".toList, "d".toList]] := by
  refine ⟨⟨"h\n".toList, true, 2, 0, 0⟩, ?_, ?_⟩ <;> decide +kernel

/-- the hypotheses of `C123_limits` -/
example : (2 : Int) > 0 ∧ docsOf "a\nb\nc\n".toList 0 ≠ [] := by
  refine ⟨?_, ?_⟩ <;> decide +kernel

/-- the file is removed after a measurement: iteration raises, the length is still answered, and a new file is cut to it -/
example : ∃ c, constructAt (some "a\nb\n".toList) (-1) (-1) false 0 = .ok c ∧
    fileRun (some "a\nb\n".toList, c) [.remove, .length, .iterate, .rewrite "a\nb\n".toList, .length, .remove, .length, .rewrite "c\nd\ne\n".toList, .iterate] =
      [.nothing, .number 0, .raised .unboundLocal, .nothing, .number 2, .nothing, .number 2, .nothing, .items ["c".toList, "d".toList]] := by
  refine ⟨⟨"a\nb\n".toList, false, 0, 0, 0⟩, ?_, ?_⟩ <;> decide +kernel

end Props
