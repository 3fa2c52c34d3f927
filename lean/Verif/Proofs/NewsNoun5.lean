import Verif.Proofs.NewsNoun4
import Verif.Proofs.LRGraph2
import Mathlib.Data.List.Forall2
namespace NewsNoun
open Py Nested NewsNounSpec

theorem bok {α β : Type} (a : α) (f : α → PyM β) : (Except.ok a >>= f) = f a := rfl

theorem mapM_forall2 {α β : Type} {f : α → PyM β} {Q : α → β → Prop} {l : List α} (h : ∀ a ∈ l, ∃ b, f a = .ok b ∧ Q a b) :
    ∃ out, l.mapM f = .ok out ∧ List.Forall₂ Q l out := by
  induction l with
  | nil => exact ⟨[], rfl, .nil⟩
  | cons a l ih =>
    obtain ⟨b, hb, hq⟩ := h a (by simp)
    obtain ⟨out, ho, hf⟩ := ih (fun a' ha' => h a' (by simp [ha']))
    refine ⟨b :: out, ?_, .cons hq hf⟩
    rw [List.mapM_cons, hb, ho]; rfl

theorem forall2_mem {α β : Type} {Q : α → β → Prop} {l : List α} {out : List β} (h : List.Forall₂ Q l out) :
    (∀ b ∈ out, ∃ a ∈ l, Q a b) ∧ (∀ a ∈ l, ∃ b ∈ out, Q a b) := by
  induction h with
  | nil => simp
  | cons hq _ ih =>
    constructor
    · intro b hb
      rcases List.mem_cons.1 hb with rfl | hb
      · exact ⟨_, by simp, hq⟩
      · obtain ⟨a, ha, h⟩ := ih.1 b hb; exact ⟨a, by simp [ha], h⟩
    · intro b hb
      rcases List.mem_cons.1 hb with rfl | hb
      · exact ⟨_, by simp, hq⟩
      · obtain ⟨a, ha, h⟩ := ih.2 b hb; exact ⟨a, by simp [ha], h⟩

section
variable (p : Params) (sents : List Str) (x : Ctx) (hx : x.t = trained p sents)
local notation "C" => corpus p sents
local notation "X" => x.sit (corpus p sents)

/-- the situation with a given list of accepted candidates -/
def Ctx.sitA (x : Ctx) (c : Corpus) (kept : List Str) : Sit := { x.sit c with A := (· ∈ kept) }

/-- the situation with compounds added to the table -/
def Ctx.sitT (x : Ctx) (c : Corpus) (kept : List Str) : Sit := { x.sit c with T := fun v => v ∈ Dict.keys x.nouns ∨ v ∈ kept }

include hx

theorem postprocessing_ok (hwf : Dict.WF x.scores) (hok : ∀ l ∈ Dict.keys x.scores, freq C l ≠ 0 ∧ 2 ≤ l.length)
    (hs : ∀ w s, Dict.get? x.scores w = some s → s = predict x.rScores x.t w) :
    ∃ post, postprocessing x = .ok post ∧ Scan (fun kept w => Accept (x.sitA C kept) w) [] (Dict.keys x.scores) (Dict.keys post) ∧
      ∀ a ∈ post, a ∈ x.scores := by
  have hk : ∀ e ∈ x.scores, freq C e.1 ≠ 0 ∧ 2 ≤ e.1.length := fun e he => hok e.1 (List.mem_map.2 ⟨e, he, rfl⟩)
  obtain ⟨nj, hnj, fnj⟩ := mapM_forall2 (l := x.scores) (f := fun e => (x.isNJsubJ e.1).map (fun b => (e.1, b)))
    (Q := fun e q => q.1 = e.1 ∧ (q.2 = true ↔ NJsubJ X e.1)) (by
      intro e he
      obtain ⟨b, hb, hq⟩ := isNJsubJ_ok p sents x hx e.1 (hk e he).1
      exact ⟨(e.1, b), by rw [hb]; rfl, rfl, hq⟩)
  obtain ⟨njs, hnjs⟩ : ∃ njs, (nj.filter (·.2)).map (·.1) = njs := ⟨_, rfl⟩
  have mnj : ∀ l, l ∈ Dict.keys x.scores → (l ∈ njs ↔ NJsubJ X l) := by
    intro l hl
    rw [← hnjs, List.mem_map]
    constructor
    · rintro ⟨q, hq, rfl⟩
      obtain ⟨hq1, hq2⟩ := List.mem_filter.1 hq
      obtain ⟨e, _, h1, h2⟩ := (forall2_mem fnj).1 q hq1
      rw [h1]; exact h2.1 hq2
    · intro hj
      obtain ⟨e, he, rfl⟩ := List.mem_map.1 hl
      obtain ⟨q, hq, h1, h2⟩ := (forall2_mem fnj).2 e he
      exact ⟨q, List.mem_filter.2 ⟨hq, h2.2 hj⟩, h1⟩
  obtain ⟨ns, hns, fns⟩ := mapM_forall2 (l := x.scores) (f := fun e => (x.findNsubJ e.1).map (fun l0s => if njs.contains e.1 then [] else l0s))
    (Q := fun e q => ∀ a, a ∈ q ↔ ¬ NJsubJ X e.1 ∧ NsubJ X e.1 a) (by
      intro e he
      obtain ⟨b, hb, hq⟩ := findNsubJ_ok p sents x hx e.1 (hk e he).1
      refine ⟨if njs.contains e.1 then [] else b, by rw [hb]; rfl, ?_⟩
      intro a
      have hm := mnj e.1 (List.mem_map.2 ⟨e, he, rfl⟩)
      by_cases hc : e.1 ∈ njs
      · rw [if_pos (by simpa using hc)]
        simp only [List.not_mem_nil, false_iff]
        rintro ⟨h1, _⟩; exact h1 (hm.1 hc)
      · rw [if_neg (by simpa using hc), hq]
        exact ⟨fun h => ⟨fun h' => hc (hm.2 h'), h⟩, fun h => h.2⟩)
  have mns : ∀ l, l ∈ ns.flatten ↔ ∃ l', (x.sit C).S l' ∧ ¬ NJsubJ X l' ∧ NsubJ X l' l := by
    intro l
    rw [List.mem_flatten]
    constructor
    · rintro ⟨q, hq, hl⟩
      obtain ⟨e, he, h1⟩ := (forall2_mem fns).1 q hq
      exact ⟨e.1, List.mem_map.2 ⟨e, he, rfl⟩, (h1 l).1 hl⟩
    · rintro ⟨l', hl', h⟩
      obtain ⟨e, he, rfl⟩ := List.mem_map.1 hl'
      obtain ⟨q, hq, h1⟩ := (forall2_mem fns).2 e he
      exact ⟨q, hq, (h1 l).2 h⟩
  obtain ⟨nvs, hnvs⟩ : ∃ nvs, (Dict.keys x.scores).filter (fun l => x.isNVsubE l && x.isNWsub l && !x.isCompound l) = nvs := ⟨_, rfl⟩
  have mnv : ∀ l ∈ Dict.keys x.scores, (l ∈ nvs ↔ NVsubE X l ∧ NWsub X l ∧ ¬ Compound X l) := by
    intro l hl
    have h2 := (hok l hl).2
    rw [← hnvs, List.mem_filter, Bool.and_eq_true, Bool.and_eq_true, isNVsubE_iff p sents x hx l h2, isNWsub_iff p sents x hx l h2,
      Bool.not_eq_true', ← Bool.not_eq_true, isCompound_iff p sents x l]
    exact ⟨fun h => ⟨h.2.1.1, h.2.1.2, h.2.2⟩, fun h => ⟨hl, ⟨h.1, h.2.1⟩, h.2.2⟩⟩
  refine ⟨hardrules x njs ns.flatten nvs x.scores [], ?_, ?_⟩
  · unfold postprocessing
    rw [hnj, bok]
    simp only
    rw [hnjs, hns, bok, hnvs]; rfl
  · have hsc := hardrules_scan x njs ns.flatten nvs (fun kept w => Accept (x.sitA C kept) w) x.scores [] (by rw [show Dict.keys ([] : Dict Str Score) = [] from rfl, List.nil_append]; exact hwf) (by
      intro post e he
      have hl := hk e he
      have hm : e.1 ∈ Dict.keys x.scores := List.mem_map.2 ⟨e, he, rfl⟩
      have hne : e.1 ≠ [] := by intro h; rw [h] at hl; simp at hl
      have hx' : ({ x with post := post } : Ctx).t = trained p sents := hx
      have hu := unijosa_iff p sents { x with post := post } hx' hs e.1
      have hc := isCompound_iff p sents { x with post := post } e.1
      have hsf := suffix_iff p sents { x with post := post } hx' e.1 hne
      have hd := dangHada_iff p sents { x with post := post } hx' e.1 hne
      have h1 := mnj e.1 hm
      have h2 := mns e.1
      have h3 := mnv e.1 hm
      have hsit : ({ x with post := post } : Ctx).sit C = x.sitA C (Dict.keys post) := rfl
      rw [hsit] at hu hc hsf hd
      unfold Accept
      have e1 : NJsubJ (x.sitA C (Dict.keys post)) e.1 ↔ NJsubJ X e.1 := Iff.rfl
      have e2 : (∃ l', (x.sitA C (Dict.keys post)).S l' ∧ ¬ NJsubJ (x.sitA C (Dict.keys post)) l' ∧ NsubJ (x.sitA C (Dict.keys post)) l' e.1) ↔
        ∃ l', (x.sit C).S l' ∧ ¬ NJsubJ X l' ∧ NsubJ X l' e.1 := Iff.rfl
      have e3 : (NVsubE (x.sitA C (Dict.keys post)) e.1 ∧ NWsub (x.sitA C (Dict.keys post)) e.1 ∧ ¬ Compound (x.sitA C (Dict.keys post)) e.1) ↔
        NVsubE X e.1 ∧ NWsub X e.1 ∧ ¬ Compound X e.1 := Iff.rfl
      rw [e1, e2, e3, ← h1, ← h2, ← h3, hsf, hd]
      have b1 : (njs.contains e.1 || ns.flatten.contains e.1 || nvs.contains e.1) = false ↔ ¬ e.1 ∈ njs ∧ ¬ e.1 ∈ ns.flatten ∧ ¬ e.1 ∈ nvs := by
        rw [← Bool.not_eq_true, Bool.or_eq_true, Bool.or_eq_true, List.contains_iff_mem, List.contains_iff_mem, List.contains_iff_mem, not_or, not_or, and_assoc]
      have b2 : (!({ x with post := post } : Ctx).unijosaFilter e.1 && !({ x with post := post } : Ctx).isCompound e.1) = false ↔
          ¬ FewJosa (x.sitA C (Dict.keys post)) e.1 ∨ Compound (x.sitA C (Dict.keys post)) e.1 := by
        rw [← hu, ← hc]
        cases ({ x with post := post } : Ctx).unijosaFilter e.1 <;> cases ({ x with post := post } : Ctx).isCompound e.1 <;> simp
      rw [b1, b2, and_assoc, and_assoc])
    exact ⟨hsc.1, fun a ha => (hsc.2 a ha).resolve_left (by simp)⟩

theorem postGo_ok (es : List (Str × Int)) (hok : ∀ e ∈ es, freq C e.1 ≠ 0 ∧ e.1 ≠ []) (nd : Dict Str Value) (kept : List Str)
    (hnd : ∀ v, v ∈ Dict.keys nd ↔ v ∈ Dict.keys x.nouns ∨ v ∈ kept) :
    ∃ nd' kept', postGo x es nd = .ok nd' ∧ Scan (fun kept w => AddCompound (x.sitT C kept) w) kept (es.map (·.1)) kept' ∧
      ∀ v, v ∈ Dict.keys nd' ↔ v ∈ Dict.keys x.nouns ∨ v ∈ kept' := by
  induction es generalizing nd kept with
  | nil => exact ⟨nd, kept, rfl, .done _, hnd⟩
  | cons e es ih =>
    have ih' := fun nd kept h => ih (fun e' he' => hok e' (by simp [he'])) nd kept h
    have hl := hok e (by simp)
    have hx' : ({ x with nouns := nd } : Ctx).t = trained p sents := hx
    have hsit : ({ x with nouns := nd } : Ctx).sit C = x.sitT C kept := by
      have : (fun v => v ∈ Dict.keys nd) = (fun v => v ∈ Dict.keys x.nouns ∨ v ∈ kept) := by funext v; exact propext (hnd v)
      unfold Ctx.sitT Ctx.sit
      simp only
      rw [this]
    obtain ⟨nj, hnj, hnj'⟩ := isNJsubJ_ok p sents { x with nouns := nd } hx' e.1 hl.1
    have hNJ := isNJ_iff p sents { x with nouns := nd } e.1
    have hNV := isNV_iff p sents { x with nouns := nd } e.1
    have hsf := suffix_iff p sents { x with nouns := nd } hx' e.1 hl.2
    have hcp := isCompound_iff p sents { x with nouns := nd } e.1
    rw [hsit] at hnj' hNJ hNV hsf hcp
    have hA : Dict.has x.post e.1 = true ↔ (x.sitT C kept).A e.1 := Dict.isSome_get?_iff _ _
    unfold postGo
    simp only
    have skip : ¬ AddCompound (x.sitT C kept) e.1 → ∃ nd' kept', postGo x es nd = .ok nd' ∧
        Scan (fun kept w => AddCompound (x.sitT C kept) w) kept ((e :: es).map (·.1)) kept' ∧ ∀ v, v ∈ Dict.keys nd' ↔ v ∈ Dict.keys x.nouns ∨ v ∈ kept' := by
      intro hn
      obtain ⟨nd', kept', h1, h2, h3⟩ := ih' nd kept hnd
      exact ⟨nd', kept', h1, .skip hn h2, h3⟩
    by_cases c1 : Dict.has x.post e.1 = true
    · rw [if_pos c1]; exact skip (fun h => h.1 (hA.1 c1))
    · rw [if_neg c1, hnj]
      simp only [bok]
      by_cases c2 : (nj || ({ x with nouns := nd } : Ctx).isNJ e.1 || ({ x with nouns := nd } : Ctx).isNV e.1) = true
      · rw [if_pos c2]
        apply skip
        rintro ⟨_, h1, h2, h3, _⟩
        rw [Bool.or_eq_true, Bool.or_eq_true, hnj', hNJ, hNV] at c2
        rcases c2 with (c2 | c2) | c2
        · exact h1 c2
        · exact h2 c2
        · exact h3 c2
      · rw [if_neg c2]
        by_cases c3 : (({ x with nouns := nd } : Ctx).suffixFilter e.1 && ({ x with nouns := nd } : Ctx).isCompound e.1) = true
        · rw [if_pos c3]
          have hadd : AddCompound (x.sitT C kept) e.1 := by
            rw [Bool.and_eq_true, hsf, hcp] at c3
            rw [Bool.or_eq_true, Bool.or_eq_true, hnj', hNJ, hNV, not_or, not_or] at c2
            exact ⟨fun h => c1 (hA.2 h), c2.1.1, c2.1.2, c2.2, c3.1, c3.2⟩
          obtain ⟨nd', kept', h1, h2, h3⟩ := ih' (Dict.set nd e.1 (.count e.2)) (kept ++ [e.1]) (by
            intro v
            rw [Dict.mem_keys_set, hnd]
            simp only [List.mem_append, List.mem_singleton]
            exact ⟨fun h => h.elim (fun h => Or.inr (Or.inr h)) (fun h => h.imp id Or.inl),
              fun h => h.elim (fun h => Or.inr (Or.inl h)) (fun h => h.elim (fun h => Or.inr (Or.inr h)) Or.inl)⟩)
          exact ⟨nd', kept', h1, .keep hadd h2, h3⟩
        · rw [if_neg c3]
          apply skip
          rintro ⟨_, _, _, _, h4, h5⟩
          apply c3; rw [Bool.and_eq_true, hsf, hcp]; exact ⟨h4, h5⟩

end

theorem get?_finish (rs : Dict Str Rat) (t : Trained) (post : Dict Str Score) (nd : Dict Str Value) (hpost : ∀ a ∈ post, a.2 = predict rs t a.1) (w : Str) :
    (w ∈ Dict.keys nd ∨ w ∈ Dict.keys post → Dict.get? (finish rs t post nd) w = some (.score (predict rs t w))) ∧
    (w ∉ Dict.keys nd → w ∉ Dict.keys post → Dict.get? (finish rs t post nd) w = none) := by
  unfold finish
  simp only
  have hfold : ∀ d : Dict Str Value, post.foldl (fun d e => Dict.set d e.1 (.score e.2)) d =
      (post.map (fun e => (e.1, Value.score e.2))).foldl (fun d e => Dict.set d e.1 e.2) d := by
    intro d; rw [List.foldl_map]
  rw [hfold, LR.get?_foldl_set _ (fun k => .score (predict rs t k)) (by
    intro e he
    obtain ⟨a, ha, rfl⟩ := List.mem_map.1 he
    simp only; rw [hpost a ha])]
  have hex : (∃ e ∈ post.map (fun e => (e.1, Value.score e.2)), e.1 = w) ↔ w ∈ Dict.keys post := by
    constructor
    · rintro ⟨e, he, rfl⟩
      obtain ⟨a, ha, rfl⟩ := List.mem_map.1 he
      exact List.mem_map.2 ⟨a, ha, rfl⟩
    · intro h
      obtain ⟨a, ha, rfl⟩ := List.mem_map.1 h
      exact ⟨_, List.mem_map.2 ⟨a, ha, rfl⟩, rfl⟩
  have hmap : ∀ d : Dict Str Value, Dict.get? (d.map (fun e => (e.1, if Dict.has post e.1 then e.2 else .score (predict rs t e.1)))) w =
      (Dict.get? d w).map (fun v => if Dict.has post w then v else .score (predict rs t w)) := by
    intro d
    induction d with
    | nil => rfl
    | cons e d ih =>
      obtain ⟨a, v⟩ := e
      rw [List.map_cons, Dict.get?_cons, Dict.get?_cons, ih]
      by_cases h : a = w
      · subst h; simp
      · simp [h]
  rw [hmap]
  constructor
  · intro h
    by_cases hp : w ∈ Dict.keys post
    · rw [if_pos (hex.2 hp)]
    · rw [if_neg (fun h => hp (hex.1 h))]
      have hn := h.resolve_right hp
      obtain ⟨v, hv⟩ := Option.isSome_iff_exists.1 ((Dict.isSome_get?_iff nd w).2 hn)
      rw [hv]
      have : Dict.has post w = false := by
        rw [← Bool.not_eq_true, Dict.isSome_get?_iff]; exact hp
      rw [Option.map_some, this]; rfl
  · intro h1 h2
    rw [if_neg (fun h => h2 (hex.1 h)), (Dict.get?_eq_none_iff nd w).2 h1]; rfl

theorem firsts_filter (q : Str → Bool) (ws : List Str) : (firsts ws).filter q = firsts (ws.filter q) := by
  induction ws using List.reverseRecOn with
  | nil => rfl
  | append_singleton ws w ih =>
    rw [firsts_append, List.filter_append]
    by_cases h : w ∈ firsts ws
    · rw [if_pos h, ih]
      by_cases hq : q w = true
      · rw [List.filter_singleton, hq]
        simp only [cond_true]
        rw [firsts_append, if_pos]
        rw [mem_firsts, List.mem_filter]
        exact ⟨(mem_firsts _ _).1 h, hq⟩
      · rw [List.filter_singleton]
        have : q w = false := by simpa using hq
        rw [this]; simp
    · rw [if_neg h, List.filter_append, ih, List.filter_singleton]
      by_cases hq : q w = true
      · rw [hq]
        simp only [cond_true]
        rw [firsts_append, if_neg]
        rw [mem_firsts, List.mem_filter]
        rintro ⟨h1, _⟩; exact h ((mem_firsts _ _).2 h1)
      · have : q w = false := by simpa using hq
        rw [this]; simp

theorem firsts_nodup {ws : List Str} (h : ws.Nodup) : firsts ws = ws := by
  unfold firsts; rw [List.Nodup.dedup (List.nodup_reverse.2 h), List.reverse_reverse]

theorem scoreAll_get? (s : State) (t : Trained) (cs : List Str) (w : Str) (v : Score) (h : Dict.get? (scoreAll s t cs) w = some v) :
    v = predict s.rScores t w := by
  unfold scoreAll Dict.ofList at h
  rw [LR.get?_foldl_set _ (fun k => predict s.rScores t k) (by
    intro e he
    obtain ⟨a, _, rfl⟩ := List.mem_map.1 he
    rfl)] at h
  split at h
  · exact (Option.some.inj h).symm
  · simp at h

theorem scoreAll_keys (s : State) (t : Trained) (cs : List Str) : Dict.keys (scoreAll s t cs) = firsts cs := by
  unfold scoreAll Dict.ofList
  rw [keys_foldl (fun (d : Dict Str Score) (e : Str × Score) => Dict.set d e.1 e.2) (fun e => e.1) (fun d x => keys_set_two d _ _), List.map_map]
  congr 1
  show cs.map id = cs
  exact List.map_id _

theorem wf_scoreAll (s : State) (t : Trained) (cs : List Str) : Dict.WF (scoreAll s t cs) := by
  unfold Dict.WF; rw [scoreAll_keys]; exact nodup_firsts _

/-- the scored words, in order -/
theorem keys_scores (p : Params) (sents : List Str) (s : State) (mns : Rat) (mf : Int) (given : List Str) (mfp : Rat) :
    Dict.keys (thresholds mns mfp (scoreAll s (trained p sents) (candidates s (trained p sents) mf given))) =
      scoredWords (corpus p sents) (Dict.get? s.rScores) mns mf given mfp := by
  have h1 : Dict.keys (thresholds mns mfp (scoreAll s (trained p sents) (candidates s (trained p sents) mf given))) =
      (firsts (candidates s (trained p sents) mf given)).filter (fun l =>
        decide ((predict s.rScores (trained p sents) l).score > mns) && decide (((predict s.rScores (trained p sents) l).frequency : Rat) > mfp) && decide (l.length > 1)) := by
    rw [← scoreAll_keys s (trained p sents)]
    unfold thresholds Dict.keys
    rw [List.filter_map]
    congr 1
    apply List.filter_congr
    intro e he
    have := scoreAll_get? s (trained p sents) _ e.1 e.2 (Dict.get?_of_mem (wf_scoreAll _ _ _) he)
    simp only [Function.comp]
    rw [this]
  rw [h1]
  unfold scoredWords candidates
  rw [← firsts_filter, List.filter_filter]
  have hbase : firsts (if given = [] then ((trained p sents).lcount.filter (fun e => decide (e.1.length ≥ 2))).map (·.1) else given) =
      if given = [] then (firsts (leftParts (corpus p sents))).filter (fun l => decide (l.length ≥ 2)) else firsts given := by
    split
    · rw [firsts_filter, ← keys_lcount]
      congr 1
      unfold Dict.keys; rw [List.filter_map]; rfl
    · rfl
  rw [hbase]
  have hgoal : ∀ (ws : List Str) (b : Bool), ((if b then ws.filter (fun l : Str => decide (l.length ≥ 2)) else ws).filter (fun l =>
        (decide ((predict s.rScores (trained p sents) l).score > mns) && decide (((predict s.rScores (trained p sents) l).frequency : Rat) > mfp) && decide (l.length > 1)) &&
          (decide (lFrequency (trained p sents) l ≥ mf) && !Dict.has s.rScores l))) =
      ws.filter (fun l => @decide (Scored (corpus p sents) (Dict.get? s.rScores) mns mf mfp l) (Classical.propDecidable _)) := by
    intro ws b
    have hq : ∀ l, ((decide ((predict s.rScores (trained p sents) l).score > mns) && decide (((predict s.rScores (trained p sents) l).frequency : Rat) > mfp) && decide (l.length > 1)) &&
          (decide (lFrequency (trained p sents) l ≥ mf) && !Dict.has s.rScores l)) = true ↔ Scored (corpus p sents) (Dict.get? s.rScores) mns mf mfp l := by
      intro l
      rw [predict_eq, lFrequency_eq]
      simp only [Bool.and_eq_true, decide_eq_true_eq, Bool.not_eq_true', gt_iff_lt, ge_iff_le]
      unfold Scored
      have hn : Dict.has s.rScores l = false ↔ Dict.get? s.rScores l = none := by
        unfold Dict.has
        cases hr : Dict.get? s.rScores l <;> simp
      rw [hn]
      push_cast
      constructor
      · rintro ⟨⟨⟨a, b⟩, c⟩, d, e⟩; exact ⟨d, e, a, b, c⟩
      · rintro ⟨d, e, a, b, c⟩; exact ⟨⟨⟨a, b⟩, c⟩, d, e⟩
    cases b with
    | true =>
      rw [if_pos rfl, List.filter_filter]
      apply List.filter_congr
      intro l _
      rw [Bool.eq_iff_iff, Bool.and_eq_true, hq]
      refine Iff.trans ?_ (@decide_eq_true_iff _ (Classical.propDecidable _)).symm
      refine ⟨fun h => h.1, fun h => ⟨h, ?_⟩⟩
      exact decide_eq_true h.2.2.2.2
    | false =>
      rw [if_neg (by simp)]
      apply List.filter_congr
      intro l _
      rw [Bool.eq_iff_iff, hq]
      exact (@decide_eq_true_iff _ (Classical.propDecidable _)).symm
  by_cases hg : given = []
  · rw [if_pos hg, if_pos hg]
    exact hgoal _ true
  · rw [if_neg hg, if_neg hg]
    exact hgoal _ false

theorem scored_freq (p : Params) (sents : List Str) (rs : Str → Option Rat) (mns : Rat) (mf : Int) (mfp : Rat) (l : Str)
    (hpos : 1 ≤ mf ∨ 0 ≤ mns ∨ 0 ≤ mfp) (h : Scored (corpus p sents) rs mns mf mfp l) : freq (corpus p sents) l ≠ 0 := by
  intro h0
  obtain ⟨h1, _, h3, h4, _⟩ := h
  rcases hpos with hp | hp | hp
  · omega
  · have : rests (corpus p sents) l = [] := List.eq_nil_of_length_eq_zero h0
    unfold mean seen at h3
    rw [this] at h3
    simp at h3
    linarith
  · rw [h0] at h4
    simp at h4
    linarith

/-- the situation before the first filter -/
noncomputable abbrev baseSit (p : Params) (sents : List Str) (s : State) (mns : Rat) (mf : Int) (given : List Str) (mfp : Rat) : Sit :=
  start (corpus p sents) (Dict.get? s.rScores) (· ∈ s.josa) (· ∈ s.verbs) (· ∈ Dict.keys s.nouns) mns mf given mfp

theorem extract_exact (p : Params) (sents : List Str) (s : State) (hs : s.trained = some (trained p sents)) (mns : Rat) (mf : Int) (given : List Str)
    (mfp : Rat) (hpos : 1 ≤ mf ∨ 0 ≤ mns ∨ 0 ≤ mfp) :
    ∃ nouns kept comps, extract s mns mf given mfp = .ok { s with nouns := nouns } ∧
      Scan (fun k w => Accept { baseSit p sents s mns mf given mfp with A := (· ∈ k) } w) []
        (scoredWords (corpus p sents) (Dict.get? s.rScores) mns mf given mfp) kept ∧
      Scan (fun k w => AddCompound { baseSit p sents s mns mf given mfp with
          A := (· ∈ kept), T := fun v => (baseSit p sents s mns mf given mfp).T v ∨ v ∈ k } w) []
        (wholeWords (baseSit p sents s mns mf given mfp) mf) comps ∧
      ∀ w, ((baseSit p sents s mns mf given mfp).T w ∨ w ∈ kept ∨ w ∈ comps → Dict.get? nouns w = some (.score (predict s.rScores (trained p sents) w))) ∧
        (¬ ((baseSit p sents s mns mf given mfp).T w ∨ w ∈ kept ∨ w ∈ comps) → Dict.get? nouns w = none) := by
  obtain ⟨nd, hnd⟩ : ∃ nd, preEojeolAnalysis s (trained p sents) mf = nd := ⟨_, rfl⟩
  obtain ⟨scores, hsc⟩ : ∃ sc, thresholds mns mfp (scoreAll s (trained p sents) (candidates s (trained p sents) mf given)) = sc := ⟨_, rfl⟩
  have hkeys := keys_scores p sents s mns mf given mfp
  rw [hsc] at hkeys
  let x : Ctx := { rScores := s.rScores, josa := s.josa, verbs := s.verbs, t := trained p sents, nouns := nd, scores := scores, post := [] }
  have hwhole : ∀ (z : Sit), z.c = corpus p sents → (wholeEojeols (trained p sents) mf).map (·.1) = wholeWords z mf := by
    intro z hz
    unfold wholeWords
    rw [hz, wholeEojeols_keys p sents x rfl mf]
    apply List.filter_congr
    intro l hl
    refine Bool.eq_iff_iff.2 (Iff.trans ?_ (@decide_eq_true_iff _ (Classical.propDecidable _)).symm)
    rw [Bool.and_eq_true, decide_eq_true_eq, decide_eq_true_eq,
      countP_eq_num (corpus p sents) l (fun r => decide (r = [])) (· = []) (by simp)]
    unfold Whole
    rw [hz]
    exact ⟨fun h => ⟨(mem_leftParts p sents l).1 hl, h.1, h.2⟩, fun h => h.2⟩
  have hT : ∀ w, w ∈ Dict.keys nd ↔ (baseSit p sents s mns mf given mfp).T w := by
    intro w
    rw [← hnd, mem_keys_pre]
    show _ ↔ w ∈ Dict.keys s.nouns ∨ _
    apply or_congr Iff.rfl
    unfold NounBeforeVerb
    constructor
    · rintro ⟨e, he, hv⟩
      rw [mem_wholes p sents x rfl] at he
      obtain ⟨v, rfl, h1, h2, h3, h4⟩ := (eojeolToNV_iff _ _ _ _ _).1 hv
      rw [predict_eq] at h3
      exact ⟨v, he, h1, h2, h3, h4⟩
    · rintro ⟨v, he, h1, h2, h3, h4⟩
      refine ⟨w ++ v, (mem_wholes p sents x rfl mf _).2 he, (eojeolToNV_iff _ _ _ _ _).2 ⟨v, rfl, h1, h2, ?_, h4⟩⟩
      rw [predict_eq]; exact h3
  have hwf : Dict.WF scores := by rw [← hsc]; exact (wf_scoreAll _ _ _).filter _
  have hmem : ∀ l ∈ Dict.keys scores, Scored (corpus p sents) (Dict.get? s.rScores) mns mf mfp l := by
    intro l hl
    rw [hkeys] at hl
    unfold scoredWords at hl
    simpa using (List.mem_filter.1 hl).2
  have hval : ∀ w v, Dict.get? scores w = some v → v = predict s.rScores (trained p sents) w := by
    intro w v h
    rw [← hsc] at h
    unfold thresholds at h
    rw [Dict.get?_filter (wf_scoreAll _ _ _)] at h
    cases hg : Dict.get? (scoreAll s (trained p sents) (candidates s (trained p sents) mf given)) w with
    | none => rw [hg] at h; simp at h
    | some v' =>
      rw [hg] at h
      have := scoreAll_get? s (trained p sents) _ w v' hg
      simp only [Option.filter] at h
      split at h
      · cases h; exact this
      · simp at h
  obtain ⟨post, hp1, hp2, hp3⟩ := postprocessing_ok p sents x rfl hwf
    (fun l hl => ⟨scored_freq p sents _ mns mf mfp l hpos (hmem l hl), (hmem l hl).2.2.2.2⟩) hval
  have hS : (fun w => w ∈ Dict.keys scores) = (fun w => w ∈ scoredWords (corpus p sents) (Dict.get? s.rScores) mns mf given mfp) := by rw [hkeys]
  have hTf : (fun w => w ∈ Dict.keys nd) = (baseSit p sents s mns mf given mfp).T := by funext w; exact propext (hT w)
  have hsitA : ∀ k, x.sitA (corpus p sents) k = { baseSit p sents s mns mf given mfp with A := (· ∈ k) } := by
    intro k
    show Sit.mk (corpus p sents) (Dict.get? s.rScores) (· ∈ s.josa) (· ∈ s.verbs) (fun w => w ∈ Dict.keys nd) (fun w => w ∈ Dict.keys scores) (· ∈ k) = _
    rw [hTf, hS]; rfl
  have hpv : ∀ a ∈ post, a.2 = predict s.rScores (trained p sents) a.1 := by
    intro a ha
    exact hval a.1 a.2 (Dict.get?_of_mem hwf (hp3 a ha))
  obtain ⟨nd', comps, hg1, hg2, hg3⟩ := postGo_ok p sents { x with post := post } rfl (wholeEojeols (trained p sents) mf) (by
      intro e he
      have h1 : e.1 ∈ (wholeEojeols (trained p sents) mf).map (·.1) := List.mem_map.2 ⟨e, he, rfl⟩
      have h2 := (mem_wholes p sents x rfl mf e.1).1 h1
      refine ⟨h2.1, ?_⟩
      intro h0
      apply h2.1
      rw [h0]
      show (rests (corpus p sents) []).length = 0
      unfold rests Counts
      simp) nd [] (by intro v; show _ ↔ v ∈ Dict.keys nd ∨ _; simp)
  refine ⟨finish s.rScores (trained p sents) post nd', Dict.keys post, comps, ?_, ?_, ?_, ?_⟩
  · unfold extract
    rw [hs]
    simp only
    rw [hnd, hsc, hp1, bok, hg1]; rfl
  · rw [← hkeys]
    apply scan_congr _ hp2
    intro k w; rw [hsitA]
  · rw [← hwhole (baseSit p sents s mns mf given mfp) rfl]
    apply scan_congr _ hg2
    intro k w
    have : ({ x with post := post } : Ctx).sitT (corpus p sents) k = { baseSit p sents s mns mf given mfp with
          A := (· ∈ Dict.keys post), T := fun v => (baseSit p sents s mns mf given mfp).T v ∨ v ∈ k } := by
      show Sit.mk (corpus p sents) (Dict.get? s.rScores) (· ∈ s.josa) (· ∈ s.verbs) (fun w => w ∈ Dict.keys nd ∨ w ∈ k) (fun w => w ∈ Dict.keys scores) (· ∈ Dict.keys post) = _
      have : (fun w => w ∈ Dict.keys nd ∨ w ∈ k) = fun v => (baseSit p sents s mns mf given mfp).T v ∨ v ∈ k := by
        funext v; rw [hT]
      rw [this, hS]; rfl
    rw [this]
  · intro w
    have hfin := get?_finish s.rScores (trained p sents) post nd' hpv w
    have hkeysnd : w ∈ Dict.keys nd' ↔ (baseSit p sents s mns mf given mfp).T w ∨ w ∈ comps := by
      rw [hg3 w, ← hT]
    constructor
    · rintro (h | h | h)
      · exact hfin.1 (Or.inl (hkeysnd.2 (Or.inl h)))
      · exact hfin.1 (Or.inr h)
      · exact hfin.1 (Or.inl (hkeysnd.2 (Or.inr h)))
    · intro h
      exact hfin.2 (fun h' => h ((hkeysnd.1 h').elim Or.inl (fun h => Or.inr (Or.inr h)))) (fun h' => h (Or.inr (Or.inl h')))

end NewsNoun
