import Verif.Props.C53
import Verif.Props.C64
import Verif.Py.DictInt
set_option linter.unusedVariables false
set_option linter.unusedSimpArgs false
namespace Props
open Py WX

private theorem shannon_perm {a b : List Nat} (h : a.Perm b) : shannon a = shannon b := by
  unfold shannon
  rw [(h.map _).sum_eq, h.sum_eq]

private theorem wf_foldl {α : Type} (f : Str → α) (l : List Str) : ∀ d : Dict Str α, d.WF → (l.foldl (fun d w => Dict.set d w (f w)) d).WF := by
  induction l with
  | nil => exact fun d h => h
  | cons w l ih => exact fun d h => ih _ (h.set w (f w))

private theorem scores_wf {p : Params} {s : State} {order : List Str} {d : Dict Str Scores} (h : wordScores p s order = .ok d) : d.WF := by
  unfold wordScores at h
  cases hc : allCohesion s order [] with
  | error e => rw [hc] at h; cases h
  | ok cps =>
    rw [hc] at h
    cases h
    exact wf_foldl (fun w => _) order [] Dict.wf_nil

private theorem cohesion_congr {s s' : State} (hL : ∀ w, Dict.get? s.L w = Dict.get? s'.L w) (hR : ∀ w, Dict.get? s.R w = Dict.get? s'.R w) (w : Str) :
    cohesion s w = cohesion s' w ∧ frequency s w = frequency s' w := by
  have e : frequency s w = frequency s' w := by unfold frequency Dict.getD; rw [hL, hR]
  refine ⟨?_, e⟩
  unfold cohesion cohesionSide
  dsimp only
  rw [e, hL, hR]

/-- C102: `WordExtractor`, trained with the same sentences in another order, without pruning on the way, its set of words enumerated in another order: the same frequencies, the same
    cohesion, branching entropy and accessor variety of every word, the same table of scores, and `extract` returns the same words with the same scores. -/
theorem C102_words (p : Params) (sents sents' : List Str) (hp : sents.Perm sents') (hne : sents ≠ []) (k k' : Int) (hk : k ≤ 0) (hk' : k' ≤ 0) :
    ∃ s s', train p {} sents k = .ok s ∧ train p {} sents' k' = .ok s' ∧
      (∀ w, frequency s w = frequency s' w ∧ cohesion s w = cohesion s' w ∧ branchingEntropy s w = branchingEntropy s' w ∧ accessorVariety s w = accessorVariety s' w) ∧
      ∀ order order' : List Str, (∀ w, w ∈ order ↔ w ∈ words p s) → (∀ w, w ∈ order' ↔ w ∈ words p s') →
        ∃ d d', wordScores p s order = .ok d ∧ wordScores p s' order' = .ok d' ∧ d.Perm d' ∧
          ∀ (c : Cuts) (w : Str), Dict.get? (extract c s.L d) w = Dict.get? (extract c s'.L d') w := by
  have hne' : sents' ≠ [] := fun h => hne (by subst h; exact List.perm_nil.1 hp)
  obtain ⟨s, e1, h1⟩ := C30_counts p {} sents k true hne hk (Or.inr rfl)
  obtain ⟨s', e2, h2⟩ := C30_counts p {} sents' k' true hne' hk' (Or.inr rfl)
  have ht : (tokensOf sents).Perm (tokensOf sents') := hp.flatMap_right _
  have n1 : ∀ w, prefixCount p.maxLeft (tokensOf sents) w = prefixCount p.maxLeft (tokensOf sents') w := fun w => ht.countP_eq _
  have n2 : ∀ w, suffixCount p.maxRight (tokensOf sents) w = suffixCount p.maxRight (tokensOf sents') w := fun w => ht.countP_eq _
  have hL : ∀ w, Dict.get? s.L w = Dict.get? s'.L w := fun w => by rw [(h1 w).1, (h2 w).1, n1]
  have hR : ∀ w, Dict.get? s.R w = Dict.get? s'.R w := fun w => by rw [(h1 w).2.1, (h2 w).2.1, n2]
  have hb : (boundaries sents).Perm (boundaries sents') := hp.flatMap_right _
  have n3 : ∀ w, beforeCount p.maxLeft sents w = beforeCount p.maxLeft sents' w := fun w => funext (fun c => hb.countP_eq _)
  have n4 : ∀ w, afterCount p.maxRight sents w = afterCount p.maxRight sents' w := fun w => funext (fun c => hb.countP_eq _)
  have hT : Trained p s := .step sents k true .fresh e1
  have hT' : Trained p s' := .step sents' k' true .fresh e2
  have hbe : ∀ w, branchingEntropy s w = branchingEntropy s' w ∧ accessorVariety s w = accessorVariety s' w := by
    intro w
    obtain ⟨t, f1, f2⟩ := C64_neighbours p {} sents k true hne hk (Or.inr rfl)
    obtain ⟨t', g1, g2⟩ := C64_neighbours p {} sents' k' true hne' hk' (Or.inr rfl)
    rw [e1] at f1; rw [e2] at g1
    cases f1; cases g1
    obtain ⟨xl, yl, xr, yr, a1, a2, a3, a4, a5, a6, a7, a8, a9, a10⟩ := f2 w
    obtain ⟨xl', yl', xr', yr', b1, b2, b3, b4, b5, b6, b7, b8, b9, b10⟩ := g2 w
    have p1 : xl.Perm xl' := (List.perm_ext_iff_of_nodup a1 b1).2 (fun c => by rw [a5, b5, n2])
    have p2 : yl.Perm yl' := (List.perm_ext_iff_of_nodup a2 b2).2 (fun c => by rw [a6, b6, n3])
    have p3 : xr.Perm xr' := (List.perm_ext_iff_of_nodup a3 b3).2 (fun c => by rw [a7, b7, n1])
    have p4 : yr.Perm yr' := (List.perm_ext_iff_of_nodup a4 b4).2 (fun c => by rw [a8, b8, n4])
    constructor
    · rw [a10, b10, n3, n4]
      simp only [n1, n2]
      rw [shannon_perm ((p1.map _).append (p2.map _)), shannon_perm ((p3.map _).append (p4.map _))]
    · rw [a9, b9, p1.length_eq, p2.length_eq, p3.length_eq, p4.length_eq]
  refine ⟨s, s', e1, e2, fun w => ⟨(cohesion_congr hL hR w).2, (cohesion_congr hL hR w).1, (hbe w).1, (hbe w).2⟩, ?_⟩
  intro order order' ho ho'
  obtain ⟨d, q1, q2⟩ := C53_word_scores p s hT order ho
  obtain ⟨d', r1, r2⟩ := C53_word_scores p s' hT' order' ho'
  have hw := scores_wf q1
  have hw' := scores_wf r1
  have keyL : ∀ w, w ∈ Dict.keys s.L ↔ w ∈ Dict.keys s'.L := fun w => by rw [← Dict.isSome_get?_iff, ← Dict.isSome_get?_iff, hL]
  have keyR : ∀ w, w ∈ Dict.keys s.R ↔ w ∈ Dict.keys s'.R := fun w => by rw [← Dict.isSome_get?_iff, ← Dict.isSome_get?_iff, hR]
  have hhas : ∀ w, Dict.has d w = true ↔ Dict.has d' w = true := fun w => by rw [(q2 w).1, (r2 w).1, keyL, keyR]
  have hget : ∀ w, Dict.get? d w = Dict.get? d' w := by
    intro w
    cases hx : Dict.get? d w with
    | none =>
      cases hy : Dict.get? d' w with
      | none => rfl
      | some y =>
        have := (hhas w).2 (by unfold Dict.has; rw [hy]; rfl)
        unfold Dict.has at this; rw [hx] at this; cases this
    | some x =>
      cases hy : Dict.get? d' w with
      | none =>
        have := (hhas w).1 (by unfold Dict.has; rw [hx]; rfl)
        unfold Dict.has at this; rw [hy] at this; cases this
      | some y =>
        obtain ⟨u1, u2, u3, u4, u5, u6⟩ := (q2 w).2 x hx
        obtain ⟨v1, v2, v3, v4, v5, v6⟩ := (r2 w).2 y hy
        rw [(cohesion_congr hL hR w).1, v1] at u1
        rw [(cohesion_congr hL hR w).2, ← v2, Prod.mk.injEq] at u2
        rw [(hbe w).1, ← v3] at u3
        rw [(hbe w).1, ← v4] at u4
        rw [(hbe w).2, ← v5] at u5
        rw [(hbe w).2, ← v6] at u6
        have u1 := Prod.mk.inj (Except.ok.inj u1)
        cases x; cases y
        simp only at u1 u2 u3 u4 u5 u6
        rw [u1.1, u1.2, u3, u4, u5, u6, u2.1, u2.2]
  classical
  refine ⟨d, d', q1, r1, Dict.perm_of_get? hw hw' hget, fun c w => ?_⟩
  have hperm := Dict.perm_of_get? hw hw' hget
  have hpos := C53_positive p s hT
  have hpos' := C53_positive p s' hT'
  have ne : ∀ (s : State), ((∀ e ∈ s.L, 0 < e.2 ∧ e.1 ≠ []) ∧ (∀ e ∈ s.R, 0 < e.2 ∧ e.1 ≠ [])) → ∀ d : Dict Str Scores,
      (∀ w, Dict.has d w = true ↔ (w ∈ Dict.keys s.L ∧ (w.length : Int) ≤ p.maxLeft) ∨ (w ∈ Dict.keys s.R ∧ (w.length : Int) ≤ p.maxRight)) → ∀ e ∈ d, e.1 ≠ [] := by
    intro s hs d hd e he h0
    have : Dict.has d e.1 = true := (Dict.isSome_get?_iff d e.1).2 (List.mem_map_of_mem he)
    rcases (hd e.1).1 this with ⟨h, _⟩ | ⟨h, _⟩
    · obtain ⟨x, hx, e0⟩ := List.mem_map.1 h
      exact (hs.1 x hx).2 (e0.trans h0)
    · obtain ⟨x, hx, e0⟩ := List.mem_map.1 h
      exact (hs.2 x hx).2 (e0.trans h0)
  have hab : Absorbs c s.L = Absorbs c s'.L := by
    funext w sc
    unfold Absorbs
    rw [hL]
  apply Option.ext
  intro sc
  rw [C53_extract c s.L d hw (ne s hpos d (fun w => (q2 w).1)), C53_extract c s'.L d' hw' (ne s' hpos' d' (fun w => (r2 w).1)), hget, hab]
  simp only [hperm.mem_iff]

/-! ### a concrete case -/

example : (match train { minFrequency := 1 } {} ["학교는 학교를".toList, "바다는".toList] 0, train { minFrequency := 1 } {} ["바다는".toList, "학교는 학교를".toList] 0 with
    | .ok s, .ok s' => decide (s ≠ s' ∧ frequency s "학교".toList = (2, 0) ∧ frequency s' "학교".toList = (2, 0)) | _, _ => false) = true := by decide +kernel

end Props
