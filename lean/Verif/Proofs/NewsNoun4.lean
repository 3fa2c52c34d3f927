import Verif.Proofs.NewsNoun3
namespace NewsNoun
open Py Nested NewsNounSpec

theorem firsts_append (ws : List Str) (w : Str) : firsts (ws ++ [w]) = if w ∈ firsts ws then firsts ws else firsts ws ++ [w] := by
  unfold firsts
  rw [List.reverse_append, List.reverse_singleton, List.singleton_append]
  by_cases h : w ∈ ws
  · rw [List.dedup_cons_of_mem (by simpa using h), if_pos (by simpa using h)]
  · rw [List.dedup_cons_of_notMem (by simpa using h), if_neg (by simpa using h), List.reverse_cons]

theorem keys_foldl {β ν : Type} (step : Dict Str ν → β → Dict Str ν) (key : β → Str)
    (h : ∀ d x, (key x ∈ Dict.keys d → Dict.keys (step d x) = Dict.keys d) ∧ (key x ∉ Dict.keys d → Dict.keys (step d x) = Dict.keys d ++ [key x])) (xs : List β) :
    Dict.keys (xs.foldl step []) = firsts (xs.map key) := by
  induction xs using List.reverseRecOn with
  | nil => rfl
  | append_singleton xs x ih =>
    rw [List.foldl_append, List.map_append, List.foldl_cons, List.foldl_nil, List.map_singleton, firsts_append, ← ih]
    by_cases hm : key x ∈ Dict.keys (xs.foldl step [])
    · rw [if_pos hm, (h _ x).1 hm]
    · rw [if_neg hm, (h _ x).2 hm]

theorem keys_set_two {ν : Type} (d : Dict Str ν) (k : Str) (v : ν) :
    (k ∈ Dict.keys d → Dict.keys (Dict.set d k v) = Dict.keys d) ∧ (k ∉ Dict.keys d → Dict.keys (Dict.set d k v) = Dict.keys d ++ [k]) := by
  rw [Dict.keys_set]; exact ⟨fun h => if_pos h, fun h => if_neg h⟩

theorem mem_firsts (ws : List Str) (w : Str) : w ∈ firsts ws ↔ w ∈ ws := by unfold firsts; simp

theorem nodup_firsts (ws : List Str) : (firsts ws).Nodup := by unfold firsts; rw [List.nodup_reverse]; exact List.nodup_dedup _

theorem inits_eq (w : Str) : w.inits = (List.range (w.length + 1)).map (fun e => w.take e) := by
  apply List.ext_getElem
  · simp
  · intro n h1 h2; simp

theorem cuts_lefts (p : Params) (sents : List Str) (w : Str) :
    (cuts p w).map (·.1) = w.inits.filter (fun l => decide (Counts (corpus p sents) l w)) := by
  rw [inits_eq, List.filter_map]
  unfold cuts
  rw [List.map_map]
  have h0 : ((fun q : Str × Str => q.1) ∘ fun e => (w.take e, w.drop e)) = fun e => w.take e := rfl
  rw [h0]
  congr 1
  obtain ⟨m, hm⟩ : ∃ m, (min p.maxLeft (w.length : Int)).toNat = m := ⟨_, rfl⟩
  rw [hm]
  have hmn : m ≤ w.length := by omega
  have hr : List.range (w.length + 1) = 0 :: (List.range' 1 m ++ List.range' (1 + m) (w.length - m)) := by
    rw [List.range_eq_range', List.range'_succ, List.range'_append_1]
    congr 2; omega
  rw [hr, List.filter_cons, List.filter_append]
  have hz : ((fun l => decide (Counts (corpus p sents) l w)) ∘ fun e => List.take e w) 0 = false := by
    simp [Counts]
  rw [hz]
  have h2 : (List.range' (1 + m) (w.length - m)).filter ((fun l => decide (Counts (corpus p sents) l w)) ∘ fun e => List.take e w) = [] := by
    rw [List.filter_eq_nil_iff]
    intro e he
    rw [List.mem_range'_1] at he
    simp only [Function.comp, decide_eq_true_eq]
    rintro ⟨_, _, h3, _⟩
    simp only [corpus, List.length_take] at h3
    omega
  rw [h2, List.append_nil]
  simp only [Bool.false_eq_true, if_false]
  apply List.filter_congr
  intro e he
  rw [List.mem_range'_1] at he
  rw [Bool.eq_iff_iff]
  simp only [Function.comp, decide_eq_true_eq]
  have hl : (w.take e).length = e := by simp; omega
  unfold Counts
  simp only [corpus]
  rw [hl]
  constructor
  · intro h
    refine ⟨List.take_prefix _ _, ?_, by omega, by omega⟩
    intro h'; rw [h'] at hl; simp at hl; omega
  · rintro ⟨_, _, _, h⟩; omega

theorem keys_lcount (p : Params) (sents : List Str) : Dict.keys (trained p sents).lcount = leftParts (corpus p sents) := by
  show (sums (buildLR (entries p (countEojeols p sents)))).map (·.1) = _
  unfold sums
  rw [List.map_map]
  show Dict.keys (buildLR (entries p (countEojeols p sents))) = _
  unfold buildLR
  rw [keys_foldl (fun (g : Nested Str) (e : Str × Str × Int) => nadd g e.1 e.2.1 e.2.2) (fun e => e.1) (fun d x => keys_set_two d _ _)]
  unfold leftParts
  congr 1
  unfold entries
  rw [List.map_flatMap]
  have h1 : Dict.keys (countEojeols p sents) = firsts ((corpus p sents).words.filter (fun w => decide ((w.length : Int) ≤ (corpus p sents).L + (corpus p sents).R))) := by
    unfold countEojeols Dict.counter
    rw [keys_foldl (fun (d : Dict Str Nat) (x : Str) => Dict.add d x 1) id (fun d x => keys_set_two d _ _), List.map_id]; rfl
  rw [← h1, List.flatMap_map]
  congr 1
  funext e
  rw [List.map_map, ← cuts_lefts p sents]
  rfl

theorem mem_leftParts (p : Params) (sents : List Str) (l : Str) : l ∈ leftParts (corpus p sents) ↔ freq (corpus p sents) l ≠ 0 := by
  rw [← keys_lcount, ← Dict.isSome_get?_iff, get?_lcount]
  by_cases h : freq (corpus p sents) l = 0 <;> simp [h]

/-! ### the passes -/

section
variable (p : Params) (sents : List Str) (x : Ctx) (hx : x.t = trained p sents)
local notation "C" => corpus p sents
include hx

theorem wholeEojeols_keys (minFrequency : Int) :
    (wholeEojeols x.t minFrequency).map (·.1) =
      (leftParts C).filter (fun l => decide (minFrequency ≤ freq C l) && decide (99/100 ≤ ((rests C l).countP (fun r => decide (r = [])) : Rat) / freq C l)) := by
  rw [← keys_lcount, hx]
  unfold wholeEojeols Dict.keys
  rw [List.filter_map]
  congr 1
  apply List.filter_congr
  intro e he
  obtain ⟨l, n⟩ := e
  have hg : Dict.get? (trained p sents).lcount l = some n := by
    apply Dict.get?_of_mem _ he
    unfold Dict.WF; rw [keys_lcount]; exact nodup_firsts _
  rw [get?_lcount] at hg
  by_cases h0 : freq C l = 0
  · rw [if_pos h0] at hg; simp at hg
  · rw [if_neg h0] at hg
    have hn : n = ((freq C l : Nat) : Int) := (Option.some.inj hg).symm
    simp only [Function.comp]
    rw [getD_eojeols_rests p sents l h0, hn]
    simp only [ge_iff_le]
    push_cast
    rfl

theorem mem_wholes (minFrequency : Int) (l : Str) :
    l ∈ (wholeEojeols x.t minFrequency).map (·.1) ↔ Whole (x.sit C) minFrequency l := by
  rw [wholeEojeols_keys p sents x hx, List.mem_filter, mem_leftParts, Bool.and_eq_true, decide_eq_true_eq, decide_eq_true_eq,
    countP_eq_num C l (fun r => decide (r = [])) (· = []) (by simp)]
  rfl

end

/-- the NV loop only ever tests the first two characters -/
theorem toNVGo_two (rs : Dict Str Rat) (t : Trained) (verbs : List Str) (es : List Nat) (hes : ∀ e ∈ es, 2 ≤ e) (w : Str) (hw : w.length = 2) (q : Str × Str) :
    toNVGo rs t verbs es w = some q ↔ es ≠ [] ∧ (predict rs t w).score ≥ 2/5 ∧ [] ∈ verbs ∧ q = (w, []) := by
  induction es with
  | nil => simp [toNVGo]
  | cons e es ih =>
    have h2 := hes e (by simp)
    have ht : w.take e = w := List.take_of_length_le (by omega)
    have hd : w.drop e = [] := List.drop_of_length_le (by omega)
    unfold toNVGo
    rw [ht, hd]
    by_cases h : (predict rs t w).score ≥ 2/5 ∧ verbs.contains [] = true
    · rw [if_pos h]
      have hv : [] ∈ verbs := by simpa using h.2
      simp only [ne_eq, reduceCtorEq, not_false_eq_true, true_and, Option.some.injEq]
      exact ⟨fun he => ⟨h.1, hv, he.symm⟩, fun he => he.2.2.symm⟩
    · rw [if_neg h, ih (fun e' h' => hes e' (by simp [h']))]
      simp only [ne_eq, reduceCtorEq, not_false_eq_true, true_and]
      constructor
      · rintro ⟨_, h3⟩; exact h3
      · rintro ⟨h3, h4, _⟩; exact absurd ⟨h3, by simpa using h4⟩ h

theorem eojeolToNV_iff (rs : Dict Str Rat) (t : Trained) (verbs : List Str) (l w : Str) :
    (∃ v, eojeolToNV rs t verbs l = some (w, v)) ↔
      ∃ v, l = w ++ v ∧ w.length = 2 ∧ 2 ≤ v.length ∧ (predict rs t w).score ≥ 2/5 ∧ (v ∈ verbs ∨ 3 ≤ v.length ∧ [] ∈ verbs) := by
  unfold eojeolToNV
  by_cases h4 : l.length < 4
  · rw [if_pos h4]
    constructor
    · rintro ⟨v, h⟩; simp at h
    · rintro ⟨v, rfl, h1, h2, _⟩; simp at h4; omega
  · rw [if_neg h4]
    obtain ⟨k, hk⟩ : ∃ k, l.length - 1 - 2 = k + 1 := ⟨l.length - 4, by omega⟩
    rw [hk, List.range'_succ]
    unfold toNVGo
    have hsplit : ∀ w v : Str, w.length = 2 → l = w ++ v → w = l.take 2 ∧ v = l.drop 2 := by
      rintro w v h1 rfl; rw [← h1]; simp
    have hlen : (l.take 2).length = 2 := by simp; omega
    have hlen' : (l.drop 2).length = l.length - 2 := by simp
    by_cases h : (predict rs t (l.take 2)).score ≥ 2/5 ∧ verbs.contains (l.drop 2) = true
    · rw [if_pos h]
      have hv : l.drop 2 ∈ verbs := by simpa using h.2
      constructor
      · rintro ⟨v, he⟩
        cases he
        exact ⟨l.drop 2, (List.take_append_drop 2 l).symm, hlen, by omega, h.1, Or.inl hv⟩
      · rintro ⟨v, he, h1, _⟩
        obtain ⟨rfl, rfl⟩ := hsplit w v h1 he
        exact ⟨_, rfl⟩
    · rw [if_neg h]
      have hgo := fun q => toNVGo_two rs t verbs (List.range' (2 + 1) k) (by intro e he; rw [List.mem_range'_1] at he; omega) (l.take 2) hlen q
      constructor
      · rintro ⟨v, he⟩
        obtain ⟨h5, h6, h7, h8⟩ := (hgo _).1 he
        cases h8
        have hk0 : k ≠ 0 := by rintro rfl; exact h5 rfl
        exact ⟨l.drop 2, (List.take_append_drop 2 l).symm, hlen, by omega, h6, Or.inr ⟨by omega, h7⟩⟩
      · rintro ⟨v, he, h1, h2, h3, h5⟩
        obtain ⟨rfl, rfl⟩ := hsplit w v h1 he
        rcases h5 with h5 | ⟨h5, h6⟩
        · exact absurd ⟨h3, by simpa using h5⟩ h
        · refine ⟨[], (hgo _).2 ⟨?_, h3, h6, rfl⟩⟩
          have hk0 : k ≠ 0 := by omega
          intro hnil
          rw [List.range'_eq_nil_iff] at hnil
          exact hk0 hnil

theorem mem_keys_pre (s : State) (t : Trained) (m : Int) (w : Str) :
    w ∈ Dict.keys (preEojeolAnalysis s t m) ↔
      w ∈ Dict.keys s.nouns ∨ ∃ e ∈ (wholeEojeols t m).map (·.1), ∃ v, eojeolToNV s.rScores t s.verbs e = some (w, v) := by
  unfold preEojeolAnalysis
  generalize wholeEojeols t m = es
  generalize s.nouns = nd
  induction es generalizing nd with
  | nil => simp
  | cons e es ih =>
    rw [List.foldl_cons, ih]
    simp only [List.map_cons, List.mem_cons, exists_eq_or_imp]
    cases h : eojeolToNV s.rScores t s.verbs e.1 with
    | none => simp
    | some q =>
      obtain ⟨a, b⟩ := q
      simp only [Dict.mem_keys_set, Option.some.injEq, Prod.mk.injEq]
      constructor
      · rintro ((h1 | h1) | h1)
        · exact Or.inr (Or.inl ⟨b, h1.symm, rfl⟩)
        · exact Or.inl h1
        · exact Or.inr (Or.inr h1)
      · rintro (h1 | ⟨v, h1, _⟩ | h1)
        · exact Or.inl (Or.inr h1)
        · exact Or.inl (Or.inl h1.symm)
        · exact Or.inr h1

theorem scan_congr {P Q : List Str → Str → Prop} (h : ∀ k w, P k w ↔ Q k w) {k ws out : List Str} (hs : Scan P k ws out) : Scan Q k ws out := by
  induction hs with
  | done k => exact .done k
  | keep h1 _ ih => exact .keep ((h _ _).1 h1) ih
  | skip h1 _ ih => exact .skip (fun h2 => h1 ((h _ _).2 h2)) ih

/-- the hard rules are a scan -/
theorem hardrules_scan (x : Ctx) (nj ns nv : List Str) (P : List Str → Str → Prop) (es : List (Str × Score)) (post : Dict Str Score)
    (hwf : (Dict.keys post ++ es.map (·.1)).Nodup)
    (hP : ∀ post e, e ∈ es → ((nj.contains e.1 || ns.contains e.1 || nv.contains e.1) = false ∧
        (!({ x with post := post } : Ctx).unijosaFilter e.1 && !({ x with post := post } : Ctx).isCompound e.1) = false ∧
        ({ x with post := post } : Ctx).suffixFilter e.1 = true ∧ ({ x with post := post } : Ctx).dangHadaFilter e.1 = true ↔ P (Dict.keys post) e.1)) :
    Scan P (Dict.keys post) (es.map (·.1)) (Dict.keys (hardrules x nj ns nv es post)) ∧
      ∀ a ∈ hardrules x nj ns nv es post, a ∈ post ∨ a ∈ es := by
  induction es generalizing post with
  | nil => exact ⟨.done _, fun a ha => Or.inl ha⟩
  | cons e es ih =>
    have hsk : (Dict.keys post ++ es.map (·.1)).Nodup := by
      rw [List.map_cons] at hwf
      exact (List.nodup_middle.1 hwf).of_cons
    have hnew : e.1 ∉ Dict.keys post := by
      rw [List.map_cons] at hwf
      have := (List.nodup_cons.1 (List.nodup_middle.1 hwf)).1
      intro h; exact this (List.mem_append_left _ h)
    have hP' : ∀ post e', e' ∈ es → _ := fun post e' he' => hP post e' (List.mem_cons_of_mem _ he')
    have hskip : ∀ b : Dict Str Score, b = hardrules x nj ns nv es post → ¬ P (Dict.keys post) e.1 →
        Scan P (Dict.keys post) ((e :: es).map (·.1)) (Dict.keys b) ∧ ∀ a ∈ b, a ∈ post ∨ a ∈ e :: es := by
      rintro b rfl hn
      obtain ⟨h1, h2⟩ := ih post hsk hP'
      exact ⟨.skip hn h1, fun a ha => (h2 a ha).imp id (List.mem_cons_of_mem _)⟩
    have hq := hP post e (by simp)
    unfold hardrules
    simp only
    by_cases c1 : (nj.contains e.1 || ns.contains e.1 || nv.contains e.1) = true
    · rw [if_pos c1]
      exact hskip _ rfl (fun h => by have := (hq.2 h).1; rw [c1] at this; cases this)
    · rw [if_neg c1]
      by_cases c2 : (!({ x with post := post } : Ctx).unijosaFilter e.1 && !({ x with post := post } : Ctx).isCompound e.1) = true
      · rw [if_pos c2]
        exact hskip _ rfl (fun h => by have := (hq.2 h).2.1; rw [c2] at this; cases this)
      · rw [if_neg c2]
        by_cases c3 : ({ x with post := post } : Ctx).suffixFilter e.1 = true
        · rw [if_neg (by rw [c3]; simp)]
          by_cases c4 : ({ x with post := post } : Ctx).dangHadaFilter e.1 = true
          · rw [if_neg (by rw [c4]; simp)]
            have hPk : P (Dict.keys post) e.1 := hq.1 ⟨by simpa using c1, by simpa using c2, c3, c4⟩
            have hkeys : Dict.keys (Dict.set post e.1 e.2) = Dict.keys post ++ [e.1] := (keys_set_two post e.1 e.2).2 hnew
            obtain ⟨h1, h2⟩ := ih (Dict.set post e.1 e.2) (by
              rw [hkeys]; rw [List.map_cons] at hwf; simpa [List.append_assoc] using hwf) hP'
            rw [hkeys] at h1
            refine ⟨.keep hPk h1, ?_⟩
            intro a ha
            rcases h2 a ha with h3 | h3
            · have : Dict.set post e.1 e.2 = post ++ [(e.1, e.2)] := by
                clear * - hnew
                induction post with
                | nil => rfl
                | cons y ys ihy =>
                  obtain ⟨y1, y2⟩ := y
                  have hy : y1 ≠ e.1 := by rintro rfl; exact hnew (by simp [Dict.keys])
                  have hys : e.1 ∉ Dict.keys ys := fun h => hnew (List.mem_cons_of_mem _ h)
                  unfold Dict.set; rw [if_neg hy, ihy hys]; rfl
              rw [this, List.mem_append] at h3
              rcases h3 with h3 | h3
              · exact Or.inl h3
              · simp at h3; right; rw [h3]; simp
            · exact Or.inr (List.mem_cons_of_mem _ h3)
          · rw [if_pos (by simpa using c4)]
            exact hskip _ rfl (fun h => c4 (hq.2 h).2.2.2)
        · rw [if_pos (by simpa using c3)]
          exact hskip _ rfl (fun h => c3 (hq.2 h).2.2.1)

end NewsNoun
