import Verif.Model.NounLog
import Verif.Props.C47
import Verif.Props.C49
import Verif.Props.C54Nouns
import Verif.Props.C59
import Mathlib.Data.List.Perm.Basic
import Mathlib.Data.List.Nodup
import Mathlib.Data.List.Perm.Subperm
/-! C95: the log files of the noun extractor report what was done and change nothing. -/
namespace Props
open Py Nested NounPost

/-- what a reader of the post-processing log sees: an empty line, a header line, then one removed word per line -/
def sectionText (sec : Str × List Str) : Str := '\n' :: sec.1 ++ ['\n'] ++ sec.2.flatMap (fun w => w ++ ['\n'])

/-- the header each post-processing step writes (the first brings a newline of its own) -/
def stepHeader (method : Str) : Option Str :=
  if method = "detaching_features".toList then some "## Ignore noun candidates from detaching pos features\n".toList
  else if method = "ignore_features".toList then some "## Ignored noun candidates these are same with features".toList
  else if method = "ignore_NJ".toList then some "## Ignored true N+J".toList
  else none

/-- in order, each once -/
def Ascending (ws : List Str) : Prop := ws.Pairwise (fun a b => strLe a b = true ∧ a ≠ b)

private theorem ascending_sorted {ws : List Str} (h : ws.Nodup) : Ascending (sorted strLe ws) := by
  have h1 := pairwise_sorted strLe_totalPre ws
  have h2 : (sorted strLe ws).Nodup := (sorted_perm strLe ws).nodup_iff.2 h
  exact h1.imp₂ (fun _ _ a b => ⟨a, b⟩) h2

private theorem perm_select {nouns : Dict Str (Rat × Rat)} (hw : nouns.WF) {rem : List Str} (hs : rem.Sublist (Dict.keys nouns)) :
    (rem ++ Dict.keys (selectTrueNouns nouns rem)).Perm (Dict.keys nouns) := by
  have hk : Dict.keys (selectTrueNouns nouns rem) = (Dict.keys nouns).filter (fun w => !(rem.contains w)) := by
    unfold selectTrueNouns Dict.keys
    rw [List.filter_map]; rfl
  rw [hk]
  have hn : (Dict.keys nouns).Nodup := hw
  refine (List.perm_ext_iff_of_nodup ?_ hn).2 ?_
  · refine List.nodup_append.2 ⟨hn.sublist hs, hn.filter _, ?_⟩
    intro a ha b hb hab
    subst hab
    simp [ha] at hb
  · intro w
    simp only [List.mem_append, List.mem_filter]
    constructor
    · rintro (h | h)
      · exact hs.subset h
      · exact h.1
    · intro h
      by_cases hr : w ∈ rem
      · exact .inl hr
      · exact .inr ⟨h, by simpa using hr⟩

private theorem njRemovals_sublist {nouns : Dict Str (Rat × Rat)} {origin : Option (Nested Str)} {mj : Int} (es : List (Str × (Rat × Rat)))
    {rem : List Str} (h : njRemovals nouns origin mj es = .ok rem) : rem.Sublist (es.map (·.1)) := by
  induction es generalizing rem with
  | nil => cases h; exact List.Sublist.refl _
  | cons e es ih =>
    unfold njRemovals at h
    cases hb : (if e.1.length ≤ 2 then (.ok false : PyM Bool) else njCuts nouns origin mj e.1 e.2 (cutPositions e.1)) with
    | error x => rw [hb] at h; cases h
    | ok b =>
      rw [hb] at h
      cases hr : njRemovals nouns origin mj es with
      | error x => rw [hr] at h; cases h
      | ok rest =>
        rw [hr] at h
        have h' : rem = if b then e.1 :: rest else rest := (Except.ok.inj h).symm
        subst h'
        cases b
        · exact (ih hr).cons _
        · exact (ih hr).cons_cons _

/-- one step, with and without the log file -/
private theorem step_logged (pos common : List Str) (origin : Option (Nested Str)) (content : Str) (nouns : Dict Str (Rat × Rat)) (hw : nouns.WF) (m : Str) :
    (postMethodLogged pos common origin content nouns m).2 = postMethod pos common origin nouns m ∧
    (∀ e, postMethod pos common origin nouns m = .error e → (postMethodLogged pos common origin content nouns m).1 = content) ∧
    (∀ kept, postMethod pos common origin nouns m = .ok kept → kept.WF ∧
      ((stepHeader m = none ∧ (postMethodLogged pos common origin content nouns m).1 = content ∧ kept = nouns) ∨
       ∃ h ws, stepHeader m = some h ∧ Ascending ws ∧ (postMethodLogged pos common origin content nouns m).1 = content ++ sectionText (h, ws) ∧
        (ws ++ Dict.keys kept).Perm (Dict.keys nouns))) := by
  have text : ∀ h ws, writeLog content h ws = content ++ sectionText (h, sorted strLe ws) := by
    intro h ws
    unfold writeLog sectionText wordLines
    rw [List.append_assoc]
  have main : ∀ (h : Str) (rem : List Str), rem.Sublist (Dict.keys nouns) →
      (selectTrueNouns nouns rem).WF ∧ Ascending (sorted strLe rem) ∧ (sorted strLe rem ++ Dict.keys (selectTrueNouns nouns rem)).Perm (Dict.keys nouns) := by
    intro h rem hs
    refine ⟨hw.filter _, ascending_sorted ((show (Dict.keys nouns).Nodup from hw).sublist hs), ?_⟩
    exact ((sorted_perm strLe rem).append_right _).trans (perm_select hw hs)
  unfold postMethodLogged postMethod stepHeader
  by_cases h1 : m = "detaching_features".toList
  · rw [if_pos h1, if_pos h1, if_pos h1]
    refine ⟨rfl, fun e h => by (cases h), ?_⟩
    intro kept hk
    cases hk
    obtain ⟨a, b, c⟩ := main "".toList _ (show (detachingFeatures nouns pos).2.Sublist _ from List.filter_sublist)
    exact ⟨a, .inr ⟨_, _, rfl, b, text _ _, c⟩⟩
  · by_cases h2 : m = "ignore_features".toList
    · rw [if_neg h1, if_pos h2, if_neg h1, if_pos h2, if_neg h1, if_pos h2]
      refine ⟨rfl, fun e h => by (cases h), ?_⟩
      intro kept hk
      cases hk
      obtain ⟨a, b, c⟩ := main "".toList _ (show (ignoreFeatures nouns (pos ++ common)).2.Sublist _ from List.filter_sublist)
      exact ⟨a, .inr ⟨_, _, rfl, b, text _ _, c⟩⟩
    · by_cases h3 : m = "ignore_NJ".toList
      · rw [if_neg h1, if_neg h2, if_pos h3, if_neg h1, if_neg h2, if_pos h3, if_neg h1, if_neg h2, if_pos h3]
        cases hc : checkNIsNJ nouns origin with
        | error e => exact ⟨rfl, fun _ _ => rfl, fun k hk => by cases hk⟩
        | ok r =>
          refine ⟨rfl, fun e h => by (cases h), ?_⟩
          intro kept hk
          have hk' : kept = r.1 := (Except.ok.inj hk).symm
          unfold checkNIsNJ at hc
          cases hr : njRemovals nouns origin 5 nouns with
          | error e => rw [hr] at hc; cases hc
          | ok rem =>
            rw [hr] at hc
            have hrr : r = (selectTrueNouns nouns rem, rem) := (Except.ok.inj hc).symm
            subst hrr hk'
            obtain ⟨a, b, c⟩ := main "".toList rem (njRemovals_sublist nouns hr)
            exact ⟨a, .inr ⟨_, _, rfl, b, text _ _, c⟩⟩
      · rw [if_neg h1, if_neg h2, if_neg h3, if_neg h1, if_neg h2, if_neg h3, if_neg h1, if_neg h2, if_neg h3]
        refine ⟨rfl, fun e h => by (cases h), ?_⟩
        intro kept hk
        cases hk
        exact ⟨hw, .inl ⟨rfl, rfl, rfl⟩⟩

private theorem loop_logged (pos common : List Str) (origin : Option (Nested Str)) (methods : List Str) :
    ∀ (content : Str) (nouns : Dict Str (Rat × Rat)), nouns.WF →
    (postLoopLogged pos common origin content nouns methods).2 = postProcessing pos common origin methods nouns ∧
    ∃ secs : List (Str × List Str), (postLoopLogged pos common origin content nouns methods).1 = content ++ secs.flatMap sectionText ∧
      (∀ s ∈ secs, Ascending s.2) ∧ (secs.map (·.1)) <+: methods.filterMap stepHeader ∧
      (∃ left : Dict Str (Rat × Rat), (secs.flatMap (·.2) ++ Dict.keys left).Perm (Dict.keys nouns)) ∧
      (∀ kept, postProcessing pos common origin methods nouns = .ok kept →
        secs.map (·.1) = methods.filterMap stepHeader ∧ (secs.flatMap (·.2) ++ Dict.keys kept).Perm (Dict.keys nouns)) := by
  induction methods with
  | nil =>
    intro content nouns hw
    refine ⟨rfl, [], (List.append_nil _).symm, by simp, by simp, ⟨nouns, List.Perm.refl _⟩, ?_⟩
    intro kept hk
    cases hk
    exact ⟨rfl, List.Perm.refl _⟩
  | cons m ms ih =>
    intro content nouns hw
    obtain ⟨a1, a2, a3⟩ := step_logged pos common origin content nouns hw m
    have hpp : postProcessing pos common origin (m :: ms) nouns = (postMethod pos common origin nouns m >>= fun n => postProcessing pos common origin ms n) := by
      unfold postProcessing; rw [List.foldlM_cons]
    cases hm : postMethod pos common origin nouns m with
    | error e =>
      have hl : postLoopLogged pos common origin content nouns (m :: ms) = (content, .error e) := by
        unfold postLoopLogged
        rw [show postMethodLogged pos common origin content nouns m = (content, .error e) from
          Prod.ext (a2 e hm) (a1.trans hm)]
      rw [hpp, hm, hl]
      refine ⟨rfl, [], (List.append_nil _).symm, by simp, by simp, ⟨nouns, List.Perm.refl _⟩, ?_⟩
      intro kept hk; cases hk
    | ok mid =>
      obtain ⟨hw', hcase⟩ := a3 mid hm
      obtain ⟨content', hc'⟩ : ∃ c, (postMethodLogged pos common origin content nouns m).1 = c := ⟨_, rfl⟩
      have hl : postLoopLogged pos common origin content nouns (m :: ms) = postLoopLogged pos common origin content' mid ms := by
        conv_lhs => unfold postLoopLogged
        rw [show postMethodLogged pos common origin content nouns m = (content', .ok mid) from Prod.ext hc' (a1.trans hm)]
      obtain ⟨b1, secs, b2, b3, b4, ⟨left, b5⟩, b6⟩ := ih content' mid hw'
      have hpp' : postProcessing pos common origin (m :: ms) nouns = postProcessing pos common origin ms mid := by rw [hpp, hm]; rfl
      rw [hl, hpp']
      rw [hc'] at hcase
      rcases hcase with ⟨hn, hcc, rfl⟩ | ⟨h, ws, hs, hasc, hcc, hperm⟩
      · refine ⟨b1, secs, by rw [b2, hcc], b3, ?_, ⟨left, b5⟩, ?_⟩
        · rw [List.filterMap_cons, hn]; exact b4
        · rw [List.filterMap_cons, hn]; exact b6
      · have comb : ∀ k : Dict Str (Rat × Rat), (secs.flatMap (·.2) ++ Dict.keys k).Perm (Dict.keys mid) →
            (((h, ws) :: secs).flatMap (·.2) ++ Dict.keys k).Perm (Dict.keys nouns) := by
          intro k hk
          rw [List.flatMap_cons, List.append_assoc]
          exact (hk.append_left ws).trans hperm
        refine ⟨b1, (h, ws) :: secs, ?_, ?_, ?_, ⟨left, comb left b5⟩, ?_⟩
        · rw [b2, hcc, List.flatMap_cons, List.append_assoc]
        · intro s hsm
          rcases List.mem_cons.1 hsm with rfl | h'
          · exact hasc
          · exact b3 s h'
        · rw [List.filterMap_cons, hs, List.map_cons]
          exact List.cons_prefix_cons.2 ⟨rfl, b4⟩
        · intro kept hk
          obtain ⟨c1, c2⟩ := b6 kept hk
          exact ⟨by rw [List.filterMap_cons, hs, List.map_cons, c1], comb kept c2⟩

/-- C95: writing the post-processing log changes nothing in the result, and the file holds exactly the account of what was
    removed, whatever it held before: one section per step that ran, in the order of the steps and under that step's header,
    each listing words in order without repetition; when the steps succeed, every candidate noun is either returned or
    listed in exactly one section, exactly once, and nothing else is listed. When a step raises, the sections of the steps
    before it are there and list candidates, none twice. -/
theorem C95_post (pos common : List Str) (origin : Option (Nested Str)) (methods : List Str) (old : Str) (nouns : Dict Str (Rat × Rat)) (hw : nouns.WF) :
    (postProcessingLogged pos common origin methods old nouns).2 = postProcessing pos common origin methods nouns ∧
    ∃ secs : List (Str × List Str), (postProcessingLogged pos common origin methods old nouns).1 = secs.flatMap sectionText ∧
      (∀ s ∈ secs, Ascending s.2) ∧ (secs.map (·.1)) <+: methods.filterMap stepHeader ∧
      (secs.flatMap (·.2)).Subperm (Dict.keys nouns) ∧
      (∀ kept, postProcessing pos common origin methods nouns = .ok kept →
        secs.map (·.1) = methods.filterMap stepHeader ∧ (secs.flatMap (·.2) ++ Dict.keys kept).Perm (Dict.keys nouns)) := by
  obtain ⟨h1, secs, h2, h3, h4, ⟨left, h5⟩, h6⟩ := loop_logged pos common origin methods [] nouns hw
  refine ⟨h1, secs, h2, h3, h4, ?_, h6⟩
  exact ((List.sublist_append_left _ _).subperm).trans h5.subperm

/-- C95: with the default steps on a graph that was not frozen, the sections say why: the first lists exactly the candidates
    that are a candidate plus a positive feature, the second the others that are features themselves, the third those of
    the rest that are a more frequent noun plus a particle, where the noun was seen with five particles. -/
theorem C95_default (pos common : List Str) (g : Nested Str) (old : Str) (nouns : Dict Str (Rat × Rat)) (hw : nouns.WF) :
    ∃ (A B C : List Str) (mid : Dict Str (Rat × Rat)),
      (postProcessingLogged pos common (some g) ["detaching_features".toList, "ignore_features".toList, "ignore_NJ".toList] old nouns).1 =
        "\n## Ignore noun candidates from detaching pos features\n\n".toList ++ A.flatMap (· ++ ['\n']) ++
        "\n## Ignored noun candidates these are same with features\n".toList ++ B.flatMap (· ++ ['\n']) ++
        "\n## Ignored true N+J\n".toList ++ C.flatMap (· ++ ['\n']) ∧
      Ascending A ∧ Ascending B ∧ Ascending C ∧
      (∀ w, w ∈ A ↔ w ∈ Dict.keys nouns ∧ NounPlusFeature nouns pos w) ∧
      (∀ w, w ∈ B ↔ w ∈ Dict.keys nouns ∧ ¬ NounPlusFeature nouns pos w ∧ (w ∈ pos ∨ w ∈ common)) ∧
      (∀ w s, (w, s) ∈ mid ↔ (w, s) ∈ nouns ∧ ¬ NounPlusFeature nouns pos w ∧ w ∉ pos ∧ w ∉ common) ∧
      (∀ w, w ∈ C ↔ ∃ l r, NounPlusJosa mid w l r ∧ 5 ≤ ((row g l).filter (fun e => josaset.contains e.1)).length) := by
  obtain ⟨n1, hn1⟩ : ∃ n1, (detachingFeatures nouns pos).1 = n1 := ⟨_, rfl⟩
  obtain ⟨n2, hn2⟩ : ∃ n2, (ignoreFeatures n1 (pos ++ common)).1 = n2 := ⟨_, rfl⟩
  have h1 := C47_detaching nouns pos
  have h2 := C47_ignoring n1 (pos ++ common)
  rw [hn1] at h1; rw [hn2] at h2
  have hw1 : n1.WF := hw.sublist h1.1
  have hw2 : n2.WF := hw1.sublist h2.1
  obtain ⟨kept, removed, hk, _, hm, hrem⟩ := C47_nj n2 hw2 g 5
  have hremn : removed.Nodup := by
    unfold checkNIsNJ at hk
    cases hr : njRemovals n2 (some g) 5 n2 with
    | error e => rw [hr] at hk; cases hk
    | ok rem =>
      rw [hr] at hk
      have : rem = removed := congrArg Prod.snd (Except.ok.inj hk)
      subst this
      exact (show (Dict.keys n2).Nodup from hw2).sublist (njRemovals_sublist n2 hr)
  have hAn : (detachingFeatures nouns pos).2.Nodup := (show (Dict.keys nouns).Nodup from hw).filter _
  have hBn : (ignoreFeatures n1 (pos ++ common)).2.Nodup := (show (Dict.keys n1).Nodup from hw1).filter _
  refine ⟨sorted strLe (detachingFeatures nouns pos).2, sorted strLe (ignoreFeatures n1 (pos ++ common)).2, sorted strLe removed, n2, ?_,
    ascending_sorted hAn, ascending_sorted hBn, ascending_sorted hremn, ?_, ?_, ?_, ?_⟩
  · have e1 : ∀ c, postMethodLogged pos common (some g) c nouns "detaching_features".toList =
        (writeLog c "## Ignore noun candidates from detaching pos features\n".toList (detachingFeatures nouns pos).2, .ok n1) := by
      intro c; unfold postMethodLogged; rw [if_pos rfl, hn1]
    have e2 : ∀ c, postMethodLogged pos common (some g) c n1 "ignore_features".toList =
        (writeLog c "## Ignored noun candidates these are same with features".toList (ignoreFeatures n1 (pos ++ common)).2, .ok n2) := by
      intro c; unfold postMethodLogged; rw [if_neg (by decide), if_pos rfl, hn2]
    have e3 : ∀ c, postMethodLogged pos common (some g) c n2 "ignore_NJ".toList = (writeLog c "## Ignored true N+J".toList removed, .ok kept) := by
      intro c; unfold postMethodLogged
      rw [if_neg (by decide), if_neg (by decide), if_pos rfl, show checkNIsNJ n2 (some g) = .ok (kept, removed) from hk]
    unfold postProcessingLogged postLoopLogged
    rw [e1]; dsimp only
    unfold postLoopLogged
    rw [e2]; dsimp only
    unfold postLoopLogged
    rw [e3]; dsimp only
    unfold postLoopLogged
    dsimp only
    unfold writeLog wordLines
    rw [show "\n## Ignore noun candidates from detaching pos features\n\n".toList =
        '\n' :: "## Ignore noun candidates from detaching pos features\n".toList ++ ['\n'] by decide +kernel,
      show "\n## Ignored noun candidates these are same with features\n".toList =
        '\n' :: "## Ignored noun candidates these are same with features".toList ++ ['\n'] by decide +kernel,
      show "\n## Ignored true N+J\n".toList = '\n' :: "## Ignored true N+J".toList ++ ['\n'] by decide +kernel]
    simp only [List.append_assoc, List.nil_append, List.cons_append]
  · intro w; rw [mem_sorted]; exact h1.2.2 w
  · intro w
    rw [mem_sorted, h2.2.2, List.mem_append]
    constructor
    · rintro ⟨ha, hb⟩
      obtain ⟨⟨w', s⟩, hms, rfl⟩ := List.mem_map.1 ha
      obtain ⟨c1, c2⟩ := (h1.2.1 _ _).1 hms
      exact ⟨List.mem_map.2 ⟨_, c1, rfl⟩, c2, hb⟩
    · rintro ⟨ha, hn, hb⟩
      obtain ⟨⟨w', s⟩, hms, rfl⟩ := List.mem_map.1 ha
      exact ⟨List.mem_map.2 ⟨_, (h1.2.1 _ _).2 ⟨hms, hn⟩, rfl⟩, hb⟩
  · intro w s
    rw [h2.2.1, h1.2.1, List.mem_append, not_or, and_assoc]
  · intro w
    rw [mem_sorted, hrem]
    have hc : ∀ n : Nat, (5 : Int) ≤ (n : Int) ↔ 5 ≤ n := fun n => by omega
    simp only [hc]

private theorem step_eq (pos common : List Str) (origin : Option (Nested Str)) (content : Str) (nouns : Dict Str (Rat × Rat)) (m : Str) :
    (postMethodLogged pos common origin content nouns m).2 = postMethod pos common origin nouns m := by
  unfold postMethodLogged postMethod
  split
  · rfl
  · split
    · rfl
    · split
      · cases checkNIsNJ nouns origin <;> rfl
      · rfl

private theorem loop_eq (pos common : List Str) (origin : Option (Nested Str)) (methods : List Str) : ∀ (content : Str) (nouns : Dict Str (Rat × Rat)),
    (postLoopLogged pos common origin content nouns methods).2 = postProcessing pos common origin methods nouns := by
  induction methods with
  | nil => intro _ _; rfl
  | cons m ms ih =>
    intro content nouns
    have hpp : postProcessing pos common origin (m :: ms) nouns = (postMethod pos common origin nouns m >>= fun n => postProcessing pos common origin ms n) := by
      unfold postProcessing; rw [List.foldlM_cons]
    rw [hpp, ← step_eq pos common origin content nouns m]
    unfold postLoopLogged
    cases hx : postMethodLogged pos common origin content nouns m with
    | mk c r => cases r with
      | error e => rfl
      | ok n => exact ih c n

/-- C95: keeping log files never changes what `extract` does, in any state of the extractor: same nouns, same state
    afterwards, same error. -/
theorem C95_transparent (num : Rat → Str) (old : V2.Logs) (p : V2.Params) (entLt : List Int → Rat → Bool) (enum : Nat → List Str → List Str)
    (s : V2.State) (m f : Rat) (resetLrgraph : Bool) :
    (V2.extractLogged num old p entLt enum s m f resetLrgraph).2 = V2.extract p entLt enum s m f resetLrgraph := by
  unfold V2.extractLogged V2.extract
  cases hl : s.lrgraph with
  | none => rfl
  | some g =>
    dsimp only
    cases hb : V2.extractBase p entLt enum s.feats g with
    | error e => rfl
    | ok x =>
      obtain ⟨F, g1, cands⟩ := x
      dsimp only
      cases hc : V2.extractCompoundsIf p F s (V2.batchPredicting p F g1 cands m).1 (V2.batchPredicting p F g1 cands m).2 m with
      | error e => rfl
      | ok y =>
        obtain ⟨s1, g2, comps⟩ := y
        dsimp only
        unfold V2.finish
        have he := loop_eq F.pos F.common g2.origin p.postprocessing [] (V2.combine (V2.batchPredicting p F g1 cands m).2 comps m f)
        rw [← he]
        unfold postProcessingLogged
        cases (postLoopLogged F.pos F.common g2.origin [] (V2.combine (V2.batchPredicting p F g1 cands m).2 comps m f) p.postprocessing).2 with
        | error e => rfl
        | ok nouns =>
          dsimp only
          cases V2.checkCovered p (enum 1) F g2 nouns 0 s1.numEojeols <;> rfl

private theorem compounds_wf (F : V2.Features) (g : LR.State) (ps : Dict Str (Rat × Rat)) (m : Rat) {C : V2.Compounds}
    (h : V2.extractCompounds F g ps m = .ok C) : Dict.WF C.compounds := by
  have go : ∀ (ws : List (Str × Int)) (pos : List Str) (scores : Dict Str Rat) (a a' : V2.Acc), a.scores.WF →
      V2.compoundGo pos scores ps a ws = .ok a' → a'.scores.WF := by
    intro ws
    induction ws with
    | nil => intro pos scores a a' ha h; cases h; exact ha
    | cons w ws ih =>
      intro pos scores a a' ha h
      obtain ⟨word, count⟩ := w
      unfold V2.compoundGo at h
      split at h
      · cases h
      · exact ih _ _ _ _ ha h
      · exact ih _ _ _ _ ha h
      · exact ih _ _ _ _ (ha.set _ _) h
  unfold V2.extractCompounds at h
  split at h
  · cases h
  · dsimp only at h
    split at h
    · cases h
    · rename_i a hc
      cases h
      have := go _ _ _ _ _ (show Dict.WF ([] : Dict Str Rat) from List.nodup_nil) hc
      unfold Dict.WF Dict.keys at this ⊢
      rw [List.map_map]
      exact this

/-- C95: after training, `extract` with log files. Whatever the files held before, the prediction log is a header line and
    then one line per entry of the score table `d`, best score first: the word, its *support*, its *score* (the header
    announces the two numbers in the other order). The post-processing log accounts for every accepted word (the nouns of
    the table and the compounds, before post-processing): returned, or listed in exactly one section, once; no other is listed.
    When finding compounds fails, the prediction log has been written and the post-processing log is untouched. -/
theorem C95_extract (num : Rat → Str) (old : V2.Logs) (p : V2.Params) (s s' : V2.State) (c : EC.State) (hw : c.counter.WF)
    (hp : ∀ kv ∈ c.counter, 0 < kv.2) (hsum : c.countSum = Dict.sumI c.counter) (htrain : V2.trainWithEojeolCounter p s c = .ok s')
    (entLt : List Int → Rat → Bool) (enum : Nat → List Str → List Str) (henum : ∀ i l, (enum i l).Perm l) (m f : Rat) (resetLrgraph : Bool) :
    ∃ d g logs, s'.lrgraph = some g ∧ V2Table p s.feats c.counter m d ∧
      V2.extractLogged num old p entLt enum s' m f resetLrgraph = (logs, V2.extract p entLt enum s' m f resetLrgraph) ∧
      (∃ rows : List (Str × (Rat × Rat)), rows.Perm d ∧ rows.Pairwise (fun a b => b.2.2 ≤ a.2.2) ∧
        logs.prediction = some ("noun score frequency\n".toList ++
          rows.flatMap (fun e => e.1 ++ " ".toList ++ num e.2.1 ++ " ".toList ++ num e.2.2 ++ "\n".toList))) ∧
      ∀ comp : PyM (Dict Str (Rat × Rat)),
        comp = (if p.extractCompound then (V2.extractCompounds s.feats g d m).map (·.compounds) else .ok []) →
        (∀ e, comp = .error e → logs.post = old.post) ∧
        (∀ cs, comp = .ok cs → ∃ (secs : List (Str × List Str)) (kept : Dict Str (Rat × Rat)), logs.post = some (secs.flatMap sectionText) ∧
          secs.map (·.1) = p.postprocessing.filterMap stepHeader ∧ (∀ sec ∈ secs, Ascending sec.2) ∧
          (secs.flatMap (·.2) ++ Dict.keys kept).Nodup ∧
          (∀ w, w ∈ secs.flatMap (·.2) ∨ w ∈ Dict.keys kept ↔ ∃ x, V2Accepted d cs m f w x) ∧
          (∀ s'' nouns, V2.extract p entLt enum s' m f resetLrgraph = .ok (s'', nouns) → nouns = kept)) := by
  obtain ⟨g, hgr, hfeat, hnum, hf, hg⟩ := trained hw hp hsum htrain
  have htab := batch_table hw hf hg s.feats m (enum 0) (henum 0)
  have htr := C95_transparent num old p entLt enum s' m f resetLrgraph
  generalize hcands : Dict.keys (V2.nounCandidates g (enum 0 s.feats.pos)) = cands at htab
  obtain ⟨d, hd⟩ : ∃ d, (V2.batchPredicting p s.feats g cands m).2 = d := ⟨_, rfl⟩
  rw [hd] at htab
  have hor : (V2.batchPredicting p s.feats g cands m).1.origin = g.origin := (V2.batch_base p s.feats m hf.cons cands).1
  have hbase : V2.extractBase p entLt enum s'.feats g = .ok (s.feats, g, cands) := by
    rw [hfeat, base_eq p entLt enum henum s.feats hf, hcands]
  refine ⟨d, g, (V2.extractLogged num old p entLt enum s' m f resetLrgraph).1, hgr, htab, Prod.ext rfl htr, ?_, ?_⟩
  · refine ⟨sorted V2.scoreDownLe d, sorted_perm _ _, ?_, ?_⟩
    · have := pairwise_sorted (le := V2.scoreDownLe) ⟨fun a b c h1 h2 => ?_, fun a b => ?_⟩ d
      · exact this.imp (fun h => of_decide_eq_true h)
      · exact decide_eq_true (le_trans (of_decide_eq_true h2) (of_decide_eq_true h1))
      · rcases le_total a.2.2 b.2.2 with h | h
        · exact .inr (decide_eq_true h)
        · exact .inl (decide_eq_true h)
    · have key : (V2.extractLogged num old p entLt enum s' m f resetLrgraph).1.prediction =
          some (V2.scoreLog num "noun score frequency".toList d) := by
        unfold V2.extractLogged
        rw [hgr]
        dsimp only
        rw [hbase]
        dsimp only
        rw [hd]
        split
        · rfl
        · split
          · rfl
          · split <;> rfl
      rw [key]
      unfold V2.scoreLog
      rw [show "noun score frequency\n".toList = "noun score frequency".toList ++ ['\n'] by decide +kernel]
      rfl
  · intro comp hcomp
    have hgraph := V2.extractCompounds_graph s.feats hor d m
    have hif : (V2.extractCompoundsIf p s.feats s' (V2.batchPredicting p s.feats g cands m).1 d m).map (fun x => x.2.2) = comp := by
      rw [hcomp]
      unfold V2.extractCompoundsIf
      by_cases hx : p.extractCompound = true
      · rw [if_pos hx, if_pos hx]
        have h3 := congrArg (Except.map (fun x => x.2.2)) hgraph
        cases h1 : V2.extractCompounds s.feats g d m <;>
          cases h2 : V2.extractCompounds s.feats (V2.batchPredicting p s.feats g cands m).1 d m <;>
          rw [h1, h2] at h3 <;> first | exact h3 | cases h3 | skip
      · rw [if_neg hx, if_neg hx]; rfl
    refine ⟨?_, ?_⟩
    · intro e he
      rw [he] at hif
      unfold V2.extractLogged
      rw [hgr]
      dsimp only
      rw [hbase]
      dsimp only
      rw [hd]
      cases hx : V2.extractCompoundsIf p s.feats s' (V2.batchPredicting p s.feats g cands m).1 d m with
      | error e' => rfl
      | ok y => rw [hx] at hif; cases hif
    · intro cs hcs
      rw [hcs] at hif
      cases hx : V2.extractCompoundsIf p s.feats s' (V2.batchPredicting p s.feats g cands m).1 d m with
      | error e' => rw [hx] at hif; cases hif
      | ok y =>
        obtain ⟨s1, g1, comps⟩ := y
        rw [hx] at hif
        have hcc : comps = cs := Except.ok.inj hif
        subst hcc
        have hx' : V2.extractCompoundsIf p s.feats s' (V2.batchPredicting p s.feats g cands m).1 (V2.batchPredicting p s.feats g cands m).2 m = .ok (s1, g1, comps) := by
          rw [hd]; exact hx
        obtain ⟨_, ho⟩ := V2.batch_compounds_reset p s.feats m hf cands hx'
        obtain ⟨kept, hk⟩ := post_ok s.feats.pos s.feats.common g.lr p.postprocessing (V2.combine d comps m f) (combine_wf htab.wf m f)
        rw [← hf.origin, ← ho] at hk
        obtain ⟨_, secs, b2, b3, _, _, b6⟩ := C95_post s.feats.pos s.feats.common g1.origin p.postprocessing (old.post.getD []) (V2.combine d comps m f)
          (combine_wf htab.wf m f)
        obtain ⟨c1, c2⟩ := b6 kept hk
        have hcw : Dict.WF comps := by
          by_cases hxc : p.extractCompound = true
          · rw [if_pos hxc, hcs] at hcomp
            cases hC : V2.extractCompounds s.feats g d m with
            | error e => rw [hC] at hcomp; cases hcomp
            | ok C =>
              rw [hC] at hcomp
              have : comps = C.compounds := Except.ok.inj hcomp
              rw [this]; exact compounds_wf _ _ _ _ hC
          · rw [if_neg hxc, hcs] at hcomp
            have : comps = [] := Except.ok.inj hcomp
            rw [this]; exact List.nodup_nil
        refine ⟨secs, kept, ?_, c1, b3, c2.nodup_iff.2 (combine_wf htab.wf m f), ?_, ?_⟩
        rotate_left
        · intro w
          rw [← List.mem_append, c2.mem_iff, ← Dict.isSome_get?_iff, Option.isSome_iff_exists]
          exact exists_congr (fun x => C49_combined d comps htab.wf hcw m f w x)
        rotate_left
        · rw [← b2]
          unfold V2.extractLogged
          rw [hgr]
          dsimp only
          rw [hbase]
          dsimp only
          rw [hx']
          dsimp only
          rw [hd]
          split
          · rfl
          · split <;> rfl
        · intro s'' nouns hn
          unfold V2.extract at hn
          rw [hgr] at hn
          dsimp only at hn
          rw [hbase] at hn
          dsimp only at hn
          rw [hx'] at hn
          dsimp only at hn
          rw [hd] at hn
          unfold V2.finish at hn
          rw [hk] at hn
          dsimp only at hn
          split at hn
          · cases hn
          · cases hn; rfl

/-- C95: the ending extractor with a log file does what it does without one; the file, whatever it held, becomes a header and
    one line per candidate ending of the score table — the ending, its frequency, its score — best score first. It shows
    every candidate, not only the endings returned. Where `extract` raises, the file is untouched. -/
theorem C95_eomi (num : Rat → Str) (old : Option Str) (s : Eomi.State) (lMax rMax : Int) (c : Dict Str Int) (hw : c.WF) (hf : V2.Fresh c s.lrgraph)
    (hg : s.lrgraph.lr = LR.lrOfCounter lMax rMax c) (enumS : List Str → List Str) (hS : ∀ l, (enumS l).Perm l)
    (enumL : List (Str × Str) → List (Str × Str)) (condition : Str) (m : Rat) (minFreq : Int) (resetG : Bool) :
    ∃ log, Eomi.extractLogged num old enumS enumL s condition m minFreq resetG = (log, Eomi.extract enumS enumL s condition m minFreq resetG) ∧
    (∀ e, Eomi.extract enumS enumL s condition m minFreq resetG = .error e → log = old) ∧
    (∀ x, Eomi.extract enumS enumL s condition m minFreq resetG = .ok x →
      ∃ (d : Dict Str (Int × Rat)) (rows : List (Str × (Int × Rat))), EomiTable lMax rMax c (SurfaceOf s.stems) s.nouns s.minNumOfFeatures m condition d ∧
        rows.Perm d ∧ rows.Pairwise (fun a b => b.2.2 ≤ a.2.2) ∧
        log = some ("eomi frequency score\n".toList ++
          rows.flatMap (fun e => e.1 ++ " ".toList ++ intStr e.2.1 ++ " ".toList ++ num e.2.2 ++ "\n".toList))) := by
  unfold Eomi.extractLogged Eomi.extract
  cases hs : Eomi.stemSurfaces s.stems with
  | error e => exact ⟨old, rfl, fun _ _ => rfl, fun x h => by cases h⟩
  | ok S =>
    have hSurf := mem_stemSurfaces hs
    have hfun : (fun l => l ∈ S) = SurfaceOf s.stems := funext (fun l => propext (hSurf l))
    have htab := table_ok hw hf hg s.nouns s.minNumOfFeatures m condition (enumS S.dedup) (S := S)
      (fun l => by rw [(hS _).mem_iff, List.mem_dedup])
    rw [hfun] at htab
    dsimp only
    generalize (Eomi.batchPrediction S s.nouns s.minNumOfFeatures m s.lrgraph (Dict.keys (Eomi.candidates s.lrgraph (enumS S.dedup) condition))) = b at *
    refine ⟨_, rfl, fun e h => by (cases h), ?_⟩
    intro x _
    refine ⟨b.2, sorted Eomi.scoreDownLe b.2, htab, sorted_perm _ _, ?_, ?_⟩
    · have := pairwise_sorted (le := Eomi.scoreDownLe) ⟨fun a b c h1 h2 => ?_, fun a b => ?_⟩ b.2
      · exact this.imp (fun h => of_decide_eq_true h)
      · exact decide_eq_true (le_trans (of_decide_eq_true h2) (of_decide_eq_true h1))
      · rcases le_total a.2.2 b.2.2 with h | h
        · exact .inr (decide_eq_true h)
        · exact .inl (decide_eq_true h)
    · unfold Eomi.scoreLog
      rw [show "eomi frequency score\n".toList = "eomi frequency score".toList ++ ['\n'] by decide +kernel]
      rfl

/-! ### concrete cases -/

private def logF : V2.Features := { pos := ["는".toList, "에".toList, "를".toList, "가".toList, "의".toList, "에서".toList], common := [] }
private def logP : V2.Params := { extractPosFeature := false, extractCompound := false }
private def logRun (sents : List Str) : PyM (Option Str × Option Str × List Str) :=
  match V2.trainWithSentences logP { feats := logF } sents with
  | .ok s => match V2.extractLogged (fun q => intStr q.num) ⟨some "old".toList, some "old".toList⟩ logP (fun _ _ => false) (fun _ l => l) s (3/10) 1 with
    | (logs, .ok r) => .ok (logs.prediction, logs.post, Dict.keys r.2)
    | (_, .error e) => .error e
  | .error e => .error e

/-- a word removed by the first step and one removed by the third; the columns are support and score -/
example : logRun ["학교는 학교는 학교에 학교를 학교가 학교의 학교도는 학교도에 학교에서는 학교에서를".toList] = .ok (
    some "noun score frequency\n학교에서 2 1\n학교도 2 1\n학교 6 1\n".toList,
    some "\n## Ignore noun candidates from detaching pos features\n\n학교에서\n\n## Ignored noun candidates these are same with features\n\n## Ignored true N+J\n학교도\n".toList,
    ["학교".toList]) := by decide +kernel

end Props
