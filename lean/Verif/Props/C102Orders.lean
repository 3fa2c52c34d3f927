import Verif.Props.C34_C36
import Verif.Props.C93
import Verif.Props.C79
import Verif.Props.C21_C23
import Verif.Props.C33
import Mathlib.Data.List.Sort
/-! C102: where the order of the sentences does matter, and how much. -/
set_option linter.unusedVariables false
set_option linter.unusedSimpArgs false
namespace Props
open Py

/-- C102: `BaseVectorizer.fit` on the same documents in another order: the same terms, and the term of every index has the same document frequency; if no two terms of the
    vocabulary have the same document frequency, the vocabulary is the same. -/
theorem C102_vectorizer (p : VZ.Params) (docs docs' : List Str) (hp : docs.Perm docs') (s s' : VZ.State) (h : VZ.fit p docs = .ok s) (h' : VZ.fit p docs' = .ok s') :
    s.idx2vocab.Perm s'.idx2vocab ∧ s.nVocabs = s'.nVocabs ∧ s.idx2vocab.map (docFreq p docs) = s'.idx2vocab.map (docFreq p docs') ∧
    ((∀ a ∈ s.idx2vocab, ∀ b ∈ s.idx2vocab, docFreq p docs a = docFreq p docs b → a = b) →
      s.idx2vocab = s'.idx2vocab ∧ ∀ t, Dict.get? s.vocabulary t = Dict.get? s'.vocabulary t) := by
  have hne : docs ≠ [] := by rintro rfl; cases h
  have hne' : docs' ≠ [] := by rintro rfl; cases h'
  have hdf : docFreq p docs = docFreq p docs' := by
    funext t
    exact hp.countP_eq _
  obtain ⟨_, e1, c1, _⟩ := C34_bijection p docs hne
  obtain ⟨_, e2, c2, _⟩ := C34_bijection p docs' hne'
  rw [h] at e1; cases e1
  rw [h'] at e2; cases e2
  obtain ⟨a1, a2⟩ := C34_selection p docs s h
  obtain ⟨b1, b2⟩ := C34_selection p docs' s' h'
  have hperm : s.idx2vocab.Perm s'.idx2vocab := by
    rw [List.perm_ext_iff_of_nodup c1.nodup c2.nodup]
    intro t
    rw [a1, b1, hdf, hp.length_eq]
  have hmap : s.idx2vocab.map (docFreq p docs) = s'.idx2vocab.map (docFreq p docs') := by
    rw [hdf] at a2 ⊢
    refine List.Perm.eq_of_pairwise (le := fun a b : Nat => b ≤ a) ?_ (List.pairwise_map.2 a2) (List.pairwise_map.2 b2) (hperm.map _)
    intro a b _ _ x y
    omega
  refine ⟨hperm, by rw [c1.size, c2.size, hperm.length_eq], hmap, fun hinj => ?_⟩
  have heq : s.idx2vocab = s'.idx2vocab := by
    have hl := hperm.length_eq
    apply List.ext_getElem hl
    intro i h1 h2
    apply hinj _ (List.getElem_mem h1) _ (hperm.mem_iff.2 (List.getElem_mem h2))
    have := List.getElem_of_eq hmap (show i < (s.idx2vocab.map (docFreq p docs)).length by simpa using h1)
    rw [List.getElem_map, List.getElem_map] at this
    exact this.trans (congrFun hdf _).symm
  refine ⟨heq, fun t => ?_⟩
  apply Option.ext
  intro i
  rw [c1.inv, c2.inv, heq]

-- the hypotheses hold: documents in two orders, with a tie and without
example : (match VZ.fit {} ["바다 나무".toList, "나무".toList], VZ.fit {} ["나무".toList, "바다 나무".toList] with
    | .ok s, .ok s' => decide (s.idx2vocab = ["나무".toList, "바다".toList] ∧ s'.idx2vocab = s.idx2vocab) | _, _ => false) = true := by decide +kernel

/-! ### findings -/

/-- C102, finding: two terms with the same document frequency: the order of the documents decides the indices. -/
theorem C102_vectorizer_violation :
    (match VZ.fit {} ["바다".toList, "나무".toList], VZ.fit {} ["나무".toList, "바다".toList] with
     | .ok s, .ok s' => decide (s.idx2vocab = ["바다".toList, "나무".toList] ∧ s'.idx2vocab = ["나무".toList, "바다".toList])
     | _, _ => false) = true := by decide +kernel

/-- C102, finding: `EojeolCounter` and `Bigram` with filtering on the way: a word with all its occurrences near each other survives, the same ones apart are lost. -/
theorem C102_pruning_violation :
    (match EC.construct { minCount := 2, checkpoint := 2 } (some ["가".toList, "가".toList, "나".toList, "다".toList]),
        EC.construct { minCount := 2, checkpoint := 2 } (some ["가".toList, "나".toList, "가".toList, "다".toList]) with
     | .ok s, .ok s' => decide (EC.getitem s "가".toList = 2 ∧ EC.getitem s' "가".toList = 0)
     | _, _ => false) = true ∧
    (BG.train { minFrequency := 2, checkpoint := 2 } ["가 나".toList, "가 나".toList, "다".toList, "라".toList]).1.counter = some [(("가".toList, "나".toList), 2)] ∧
    (BG.train { minFrequency := 2, checkpoint := 2 } ["가 나".toList, "다".toList, "가 나".toList, "라".toList]).1.counter = some [] := by
  refine ⟨by decide +kernel, by decide +kernel, by decide +kernel⟩

private def exScores : Dict Str Rat := [("은".toList, 1/2), ("을".toList, 1), ("이".toList, 3/4), ("었다".toList, -1)]
private def exNews : NewsNoun.State := ⟨exScores, NewsNoun.josaOf exScores, [], [], none⟩
private def exNouns (sents : List String) : List String :=
  match NewsNoun.trainExtract {} exNews (sents.map (·.toList)) with
  | .ok s => (Dict.keys s.nouns).map String.ofList
  | .error _ => []

/-- C102, finding: `NewsNounExtractor`: 바다나무도로기차 is a noun if 도로기차 was met before it, and is not if it was met afterwards. -/
theorem C102_news_violation :
    exNouns ["바다은 바다을 바다이 나무은 나무을 나무이 도로은 도로을 도로이 기차은 기차을 기차이", "도로기차 도로기차 도로기차", "바다나무도로기차 바다나무도로기차 바다나무도로기차"] =
      ["도로기차", "바다나무도로기차", "바다", "나무", "도로", "기차"] ∧
    exNouns ["바다은 바다을 바다이 나무은 나무을 나무이 도로은 도로을 도로이 기차은 기차을 기차이", "바다나무도로기차 바다나무도로기차 바다나무도로기차", "도로기차 도로기차 도로기차"] =
      ["도로기차", "바다", "나무", "도로", "기차"] := by
  refine ⟨by decide +kernel, by decide +kernel⟩

private def exPred : Pred.State :=
  Pred.construct [] [] [] [] (["산다", "탄다"].map (·.toList)) (some ["는".toList]) (some ["예쁘".toList]) (some (["먹", "사", "살", "산", "뛰", "스", "트"].map (·.toList)))
    (some (["ㄴ다", "다", "안다"].map (·.toList))) false false
private def exWords (sents : List String) : List String :=
  match Pred.trainExtract (fun _ _ => false) id id {} false false exPred (.sentences (sents.map (·.toList))) with
  | .ok (_, adj, vb) => (Dict.keys adj ++ Dict.keys vb).map String.ofList
  | .error _ => ["error"]

/-- C102, finding: `PredicatorExtractor`: although the same endings are learnt and given up, which words are reported can depend on the order of the sentences: 산다 (산 + 다) is
    lost if 탄다 was met before it. -/
theorem C102_predicator_violation :
    exWords ["산다 산다", "탄다 탄다", "먹다 먹다 뛰다 뛰다"] = ["산다", "먹다", "뛰다"] ∧ exWords ["탄다 탄다", "산다 산다", "먹다 먹다 뛰다 뛰다"] = ["먹다", "뛰다"] := by
  refine ⟨by decide +kernel, by decide +kernel⟩

end Props
