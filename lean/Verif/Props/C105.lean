import Verif.Model.Trained
import Verif.Model.Interrupted
import Verif.Props.C33
/-!
# C105 What `is_trained` tells

`LRNounExtractor_v2.is_trained` is true exactly after a training that returned; `EomiExtractor.is_trained` after any call of `extract`, also one that raised;
`Bigram.is_trained` if a pair of words is left in the counter, so training that leaves none, or that is interrupted, is reported by what was counted.
-/
namespace Props
open Py

private theorem v2_train_graph (p : V2.Params) (s s' : V2.State) (x : V2.Input) (m : Int) (h : V2.train p s x m = .ok s') : s'.lrgraph.isSome = true := by
  have hg : ∀ (g : LR.State) (n : Int) (s' : V2.State), V2.trainWithLrgraph s g n = .ok s' → s'.lrgraph.isSome = true := by
    intro g n s' h
    unfold V2.trainWithLrgraph at h
    split at h
    · split at h
      · cases h; rfl
      · cases h
    · cases h; rfl
  have hc : ∀ (c : EC.State) (s' : V2.State), V2.trainWithEojeolCounter p s c = .ok s' → s'.lrgraph.isSome = true := by
    intro c s' h
    unfold V2.trainWithEojeolCounter at h
    split at h
    · exact hg _ _ _ h
    · cases h
  cases x with
  | graph g => exact hg _ _ _ h
  | counter c => exact hc _ _ h
  | sentences sents =>
    have h : V2.trainWithSentences p s sents m = .ok s' := h
    unfold V2.trainWithSentences at h
    split at h
    · exact hc _ _ h
    · cases h

private theorem finishLeft_some (p : V2.Params) (enum : Nat → List Str → List Str) (s : V2.State) (g : LR.State) (nouns : Dict Str (Rat × Rat)) (b : Bool)
    (h : s.lrgraph.isSome = true) : (V2.finishLeft p enum s g nouns b).1.lrgraph.isSome = true := by
  unfold V2.finishLeft
  dsimp only
  split
  · exact h
  · split <;> rfl

private theorem base_some (p : V2.Params) (entLt : List Int → Rat → Bool) (enum : Nat → List Str → List Str) (s : V2.State) (g : LR.State)
    (h : s.lrgraph.isSome = true) : (V2.extractBaseLeft p entLt enum s g).1.lrgraph.isSome = true := by
  unfold V2.extractBaseLeft
  dsimp only
  split
  · split
    · rfl
    · split <;> rfl
  · exact h

private theorem compounds_some (s : V2.State) (g : LR.State) (ps : Dict Str (Rat × Rat)) (m : Rat) :
    (V2.extractCompoundsLeft s g ps m).1.lrgraph.isSome = true := by
  unfold V2.extractCompoundsLeft
  dsimp only
  split
  · rfl
  · split <;> rfl

private theorem extractLeft_graph (p : V2.Params) (entLt : List Int → Rat → Bool) (enum : Nat → List Str → List Str) (s : V2.State) (m f : Rat) (b : Bool) :
    (V2.extractLeft p entLt enum s m f b).1.lrgraph.isSome = s.lrgraph.isSome := by
  cases hs : s.lrgraph with
  | none =>
    unfold V2.extractLeft
    simp only [hs]
  | some g =>
    have hb := base_some p entLt enum { s with numCovered := 0 } g (by show s.lrgraph.isSome = true; rw [hs]; rfl)
    rw [Option.isSome_some]
    unfold V2.extractLeft
    simp only [hs] at hb ⊢
    generalize V2.extractBaseLeft p entLt enum _ g = x at hb ⊢
    obtain ⟨s1, r⟩ := x
    cases r with
    | error e => exact hb
    | ok gc =>
      dsimp only
      split
      · split
        · next s2 e hx => exact (congrArg (fun y : V2.State × PyM (Dict Str (Rat × Rat)) => y.1.lrgraph.isSome) hx).symm.trans (compounds_some _ _ _ _)
        · next s2 cs hx => exact finishLeft_some _ _ _ _ _ _ ((congrArg (fun y : V2.State × PyM (Dict Str (Rat × Rat)) => y.1.lrgraph.isSome) hx).symm.trans (compounds_some _ _ _ _))
      · exact finishLeft_some _ _ _ _ _ _ rfl

/-- C105: after any history of calls on a new `LRNounExtractor_v2`, raising or not, `is_trained` is true exactly if a call of `train` in it returned. -/
theorem C105_nouns (p : V2.Params) (entLt : List Int → Rat → Bool) (s : V2.State) (hs : s.lrgraph = none) (cs : List V2.Call) :
    V2.isTrained (V2.history p entLt s cs).1 = true ↔ ∃ x m, (V2.Call.train x m, Except.ok ()) ∈ (V2.history p entLt s cs).2 := by
  have key : ∀ (cs : List V2.Call) (s : V2.State), V2.isTrained (V2.history p entLt s cs).1 = true ↔
      V2.isTrained s = true ∨ ∃ x m, (V2.Call.train x m, Except.ok ()) ∈ (V2.history p entLt s cs).2 := by
    intro cs
    induction cs with
    | nil => intro s; exact ⟨.inl, fun h => h.elim id (fun ⟨_, _, h⟩ => by cases h)⟩
    | cons c cs ih =>
      intro s
      show V2.isTrained (V2.history p entLt (V2.callLeft p entLt s c).1 cs).1 = true ↔ _
      rw [ih]
      have hm : ∀ x m, (V2.Call.train x m, Except.ok ()) ∈ (V2.history p entLt s (c :: cs)).2 ↔
          (V2.Call.train x m, Except.ok ()) = (c, (V2.callLeft p entLt s c).2) ∨ (V2.Call.train x m, Except.ok ()) ∈ (V2.history p entLt (V2.callLeft p entLt s c).1 cs).2 :=
        fun x m => List.mem_cons
      simp only [hm]
      cases c with
      | train x m =>
        cases ht : V2.train p s x m with
        | ok s' =>
          have h1 : V2.isTrained s' = true := v2_train_graph p s s' x m ht
          have h2 : V2.callLeft p entLt s (.train x m) = (s', .ok ()) := by unfold V2.callLeft; simp only [ht]
          rw [h2]
          exact ⟨fun _ => .inr ⟨x, m, .inl rfl⟩, fun _ => .inl h1⟩
        | error e =>
          have h2 : V2.callLeft p entLt s (.train x m) = (s, .error e) := by unfold V2.callLeft; simp only [ht]
          rw [h2]
          constructor
          · rintro (h | ⟨a, b, h⟩)
            · exact .inl h
            · exact .inr ⟨a, b, .inr h⟩
          · rintro (h | ⟨a, b, h | h⟩)
            · exact .inl h
            · have := (Prod.mk.inj h).2; cases this
            · exact .inr ⟨a, b, h⟩
      | extract enum m f r =>
        have h1 : V2.isTrained (V2.callLeft p entLt s (.extract enum m f r)).1 = V2.isTrained s := by
          unfold V2.isTrained
          rw [← extractLeft_graph p entLt enum s m f r]
          unfold V2.callLeft
          dsimp only
          generalize V2.extractLeft p entLt enum s m f r = y
          obtain ⟨s', r'⟩ := y
          cases r' <;> rfl
        rw [h1]
        constructor
        · rintro (h | ⟨a, b, h⟩)
          · exact .inl h
          · exact .inr ⟨a, b, .inr h⟩
        · rintro (h | ⟨a, b, h | h⟩)
          · exact .inl h
          · have := (Prod.mk.inj h).1; cases this
          · exact .inr ⟨a, b, h⟩
  rw [key]
  have : V2.isTrained s = false := by unfold V2.isTrained; rw [hs]; rfl
  rw [this]
  exact ⟨fun h => h.elim (fun h => by cases h) id, .inr⟩

/-- C105: `EomiExtractor.is_trained` is true exactly once `extract` has been called, even if every call raised; a call that raised leaves no endings and the graph as it was. -/
theorem C105_eomi (s : Eomi.State) (hs : s.eomis = none) (cs : List Eomi.Args) :
    (Eomi.isTrained (Eomi.history s cs) = true ↔ cs ≠ []) ∧
    ∀ (t : Eomi.State) (c : Eomi.Args) (e : PyErr), (Eomi.extractLeft c.enumS c.enumL t c.condition c.minScore c.minFrequency c.reset).2 = .error e →
      (Eomi.extractLeft c.enumS c.enumL t c.condition c.minScore c.minFrequency c.reset).1 = { t with eomis := some [] } := by
  have step : ∀ (t : Eomi.State) (c : Eomi.Args), (Eomi.extractLeft c.enumS c.enumL t c.condition c.minScore c.minFrequency c.reset).1.eomis.isSome = true := by
    intro t c
    unfold Eomi.extractLeft Eomi.extract
    cases Eomi.stemSurfaces t.stems <;> rfl
  refine ⟨?_, ?_⟩
  · rcases List.eq_nil_or_concat cs with rfl | ⟨cs', c, rfl⟩
    · show s.eomis.isSome = true ↔ _
      rw [hs]
      exact ⟨fun h => by (cases h), fun h => absurd rfl h⟩
    · refine ⟨fun _ => by simp, fun _ => ?_⟩
      unfold Eomi.history
      rw [List.concat_eq_append, List.foldl_append]
      exact step _ c
  · intro t c e h
    unfold Eomi.extractLeft at h ⊢
    generalize Eomi.extract _ _ _ _ _ _ _ = x at h ⊢
    cases x with
    | error e' => rfl
    | ok y => cases h

/-- C105: `Bigram.is_trained`: false for a new object; after `train`, true exactly if some pair of adjacent words is left in the (filtered) count; and after a training
that the corpus interrupted, exactly if some pair has a positive count at that moment. -/
theorem C105_bigram (p : BG.Params) (s : BG.State) (sents : List Str) (e : PyErr) :
    BG.isTrained {} = false ∧
    (BG.isTrained (BG.train p sents).1 = true ↔ ∃ b, 0 < bigramRun p sents b) ∧
    ((p.checkpoint ≤ 0 ∨ (sents.length : Int) ≤ p.checkpoint) →
      (BG.isTrained (BG.train p sents).1 = true ↔ ∃ b, 0 < bigramCount p sents b ∧ p.minFrequency ≤ bigramCount p sents b) ∧
      (BG.isTrained (Feed.bigramTrain p s ⟨sents, some e⟩).1 = true ↔ ∃ b, 0 < bigramCount p sents b)) := by
  have nonempty : ∀ (c : Dict (Str × Str) Nat), c ≠ [] ↔ ∃ b, (Dict.get? c b).isSome = true := by
    intro c
    cases c with
    | nil => exact ⟨fun h => absurd rfl h, fun ⟨b, h⟩ => by rw [Dict.get?_nil] at h; cases h⟩
    | cons a c =>
      refine ⟨fun _ => ⟨a.1, ?_⟩, fun _ h => by cases h⟩
      rw [Dict.isSome_get?_iff]
      simp [Dict.keys]
  obtain ⟨c, hc, -, hg⟩ := C33_exact p sents
  refine ⟨rfl, ?_, fun hcp => ⟨?_, ?_⟩⟩
  · unfold BG.isTrained
    rw [hc]
    dsimp only
    rw [decide_eq_true_iff, nonempty]
    refine exists_congr (fun b => ?_)
    rw [hg]
    by_cases h : 0 < bigramRun p sents b <;> simp [h]
  · have hc' : (BG.train p sents).1.counter = some (BG.cut p.minFrequency (sents.zipIdx.foldl (BG.sentence p) [])) := rfl
    unfold BG.isTrained
    rw [hc']
    dsimp only
    rw [decide_eq_true_iff, nonempty]
    refine exists_congr (fun b => ?_)
    rw [bg_counter_exact p sents hcp b]
    by_cases h : 0 < bigramCount p sents b ∧ p.minFrequency ≤ bigramCount p sents b
    · rw [if_pos h]; exact ⟨fun _ => h, fun _ => rfl⟩
    · rw [if_neg h]; exact ⟨fun h => by (cases h), fun h' => absurd h' h⟩
  · unfold BG.isTrained Feed.bigramTrain
    dsimp only
    rw [decide_eq_true_iff, nonempty, bg_fold_eq p sents hcp]
    refine exists_congr (fun b => ?_)
    rw [Dict.get?_foldl_inc, bg_count_all]
    by_cases h : 0 < bigramCount p sents b <;> simp [h]

/-! ### concrete cases -/

private def strict : BG.Params := { minFrequency := 2 }

/-- trained on a text without a pair that occurs twice, a `Bigram` says it is not trained; an interrupted training says it is -/
example : BG.isTrained (BG.train strict ["a b c".toList]).1 = false ∧ BG.isTrained (BG.train strict ["a b a b".toList]).1 = true ∧
    BG.isTrained (Feed.bigramTrain strict {} ⟨["a b c".toList], some .osError⟩).1 = true := by decide +kernel

private def eomiBad : Eomi.State := { lrgraph := {}, stems := ["abc".toList], nouns := [] }

/-- a stem that is not Hangul makes `extract` raise; afterwards `is_trained` is true -/
example : Eomi.isTrained eomiBad = false ∧ (match (Eomi.extractLeft id id eomiBad [] 0 0 true).2 with | .error _ => true | .ok _ => false) = true ∧
    Eomi.isTrained (Eomi.extractLeft id id eomiBad [] 0 0 true).1 = true := by decide +kernel

/-- a history with a training that raises, an extraction before any training, a training that returns and an extraction that raises -/
example : V2.isTrained (V2.history { maxLeft := 0 } (fun _ _ => false) {} [.train (.sentences ["a b".toList]) 1, .extract (fun _ l => l) 0 0 true]).1 = false ∧
    V2.isTrained (V2.history { maxLeft := 0 } (fun _ _ => false) {} [.train (.graph {}) 1, .extract (fun _ l => l) 0 0 true]).1 = true := by decide +kernel

end Props
