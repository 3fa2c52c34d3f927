import Verif.Proofs.Crash
import Mathlib.Data.List.Forall2
import Verif.Props.C34_C36
/-! C98: files left half-written. `save` opens the file and writes line by line; if the process dies on the way, what is found afterwards is some beginning of the
text. (A cut inside the bytes of one character is not considered: reading it raises UnicodeDecodeError.) -/
namespace Props
open Py Nested

/-- **C98** (`EojeolCounter`) Whatever is left of the file, loading it reads back the words written completely, the most frequent ones, with their counts, and no other word, except for
    the word after them: either nothing of it is read, and the call succeeds or raises `ValueError`, or its count has lost its last `j` digits - without any complaint. -/
theorem C98_counter (s t : EC.State) (hwf : s.counter.WF) (hw : ∀ e ∈ Dict.keys s.counter, Writable e) (hc : ∀ e c, (e, c) ∈ s.counter → 0 ≤ c)
    (part : Str) (hp : part <+: EC.save s) :
    ∃ (es : List (Str × Int)) (k : Nat) (u : EC.State) (r : PyM Unit), es.Perm s.counter ∧ es.Pairwise (fun x y => y.2 ≤ x.2) ∧ k ≤ es.length ∧ EC.load t part = (u, r) ∧
      (r = .ok () ∧ u.counter = es.take k ∧ u.countSum = ((es.take k).map (·.2)).sum ∨
       r = .error .valueError ∧ u.counter = es.take k ∧ k < es.length ∨
       r = .ok () ∧ ∃ w n, ∃ j : Nat, es[k]? = some (w, n) ∧ u.counter = es.take k ++ [(w, n / 10 ^ j)] ∧ (0 < n → 0 < n / 10 ^ j)) := by
  obtain ⟨es, hes⟩ : ∃ es, es = sorted EC.saveLe s.counter := ⟨_, rfl⟩
  have hperm : es.Perm s.counter := hes ▸ sorted_perm _ _
  have hsort : es.Pairwise (fun x y => y.2 ≤ x.2) := by
    rw [hes]
    refine (pairwise_sorted EC.saveLe_totalPre s.counter).imp ?_
    intro x y h
    unfold EC.saveLe at h
    split at h
    · omega
    · split at h
      · cases h
      · omega
  have hesw : Dict.WF es := (hperm.map _).nodup_iff.2 hwf
  have hew : ∀ x ∈ es, Writable x.1 := fun x hx => hw _ (List.mem_map.2 ⟨x, hperm.subset hx, rfl⟩)
  have hec : ∀ x ∈ es, 0 ≤ x.2 := fun x hx => hc x.1 x.2 (hperm.subset hx)
  have hsave : EC.save s = (es.map EC.saveLine).flatMap (fun l => l ++ ['\n']) := by
    unfold EC.save; rw [← hes, List.flatMap_map]
  have hnl : ∀ l ∈ es.map EC.saveLine, '\n' ∉ l ∧ '\r' ∉ l := by
    intro l hl
    obtain ⟨x, hx, rfl⟩ := List.mem_map.1 hl
    have h1 := Crash.nospace_nl (hew x hx).2
    have h2 := Crash.nospace_nl (intStr_word x.2).2
    have a1 : '\n' ≠ ' ' := by decide
    have a2 : '\r' ≠ ' ' := by decide
    simp [EC.saveLine, h1, h2, a1, a2]
  rw [hsave] at hp
  obtain ⟨k, q, hk, rfl, hq⟩ := Crash.prefix_lines _ part hp
  rw [List.length_map] at hk
  have hqnl : '\n' ∉ q ∧ '\r' ∉ q := by
    rcases hq with rfl | ⟨l, hl, hq⟩
    · simp
    · exact Crash.nonl_of_prefix hq (hnl l (List.mem_of_getElem? hl))
  have hlines := Crash.fileLines_cut ((es.map EC.saveLine).take k) (fun l hl => hnl l (List.mem_of_mem_take hl)) q hqnl
  rw [← List.map_take, List.map_map] at hlines
  have hfull : List.Forall₂ CountLine ((es.take k).map ((· ++ ['\n']) ∘ EC.saveLine)) (es.take k) := by
    rw [List.forall₂_map_left_iff]
    refine List.forall₂_same.2 (fun x hx => ?_)
    exact Crash.counter_full x.1 x.2 (hew x (List.mem_of_mem_take hx))
  have hof : Dict.ofList (es.take k) = es.take k := Dict.ofList_eq_self _ (Dict.WF.sublist hesw (List.take_sublist _ _))
  have hgo := ec_go hfull (if q = [] then [] else [q]) []
  rw [← hlines, List.map_take] at hgo
  have hof' : (es.take k).foldl (fun d e => Dict.set d e.1 e.2) ([] : Dict Str Int) = es.take k := hof
  rw [hof'] at hgo
  rcases hq with rfl | ⟨l, hl, hq⟩
  · rw [if_pos rfl] at hgo
    refine ⟨es, k, ⟨es.take k, Dict.sumI (es.take k), 0⟩, .ok (), hperm, hsort, hk, ?_, Or.inl ⟨rfl, rfl, rfl⟩⟩
    unfold EC.load
    rw [hgo]; rfl
  · by_cases hq0 : q = []
    · rw [if_pos hq0] at hgo
      refine ⟨es, k, ⟨es.take k, Dict.sumI (es.take k), 0⟩, .ok (), hperm, hsort, hk, ?_, Or.inl ⟨rfl, rfl, rfl⟩⟩
      unfold EC.load
      rw [hgo]; rfl
    rw [if_neg hq0] at hgo
    rw [List.getElem?_map, Option.map_eq_some_iff] at hl
    obtain ⟨⟨w, n⟩, hx, rfl⟩ := hl
    have hmem : (w, n) ∈ es := List.mem_of_getElem? hx
    have hlt : k < es.length := (List.getElem?_eq_some_iff.1 hx).1
    rcases Crash.counter_line w n (hew _ hmem) (hec _ hmem) q hq0 hq with hbad | ⟨j, ⟨d, h1, h2⟩, hj⟩
    · refine ⟨es, k, ⟨es.take k, t.countSum, 0⟩, .error .valueError, hperm, hsort, hk, ?_, Or.inr (Or.inl ⟨rfl, rfl, hlt⟩)⟩
      unfold EC.load
      rw [hgo, EC.loadGo, ec_bad hbad]
    · have hnew : Dict.set (es.take k) w (n / 10 ^ j) = es.take k ++ [(w, n / 10 ^ j)] := by
        have hw2 : Dict.WF (es.take k ++ [(w, n / 10 ^ j)]) := by
          have hsub : (es.take k ++ [es[k]]).Sublist es := by
            rw [List.take_append_getElem]; exact List.take_sublist _ _
          have := Dict.WF.sublist hesw hsub
          rw [(List.getElem?_eq_some_iff.1 hx).2] at this
          unfold Dict.WF Dict.keys at this ⊢
          simpa using this
        exact Dict.foldl_set_append [(w, n / 10 ^ j)] (es.take k) hw2
      refine ⟨es, k, ⟨es.take k ++ [(w, n / 10 ^ j)], Dict.sumI (es.take k ++ [(w, n / 10 ^ j)]), 0⟩, .ok (), hperm, hsort, hk, ?_, Or.inr (Or.inr ⟨rfl, w, n, j, hx, rfl, hj⟩)⟩
      have hl1 : EC.loadLine (es.take k) q = .ok (es.take k ++ [(w, n / 10 ^ j)]) := by
        unfold EC.loadLine
        rw [h1]
        dsimp only
        rw [h2]
        exact congrArg Except.ok hnew
      unfold EC.load
      rw [hgo, EC.loadGo, hl1]
      rfl

/-- what a graph read from a file holds, and what it is reset to -/
def HoldsPairs (t u : LR.State) (pairs : Str → Str → Int → Prop) : Prop :=
  (∀ l r c, (r, c) ∈ LR.getR u l 0 ↔ pairs l r c) ∧ (∀ l r c, (l, c) ∈ LR.getL u r 0 ↔ r ≠ [] ∧ pairs l r c) ∧ LR.reset u = (u, .ok ()) ∧ u.lMax = t.lMax ∧ u.rMax = t.rMax

private theorem load_lines (t : LR.State) (xs : List (Str × Str × Int)) (hne : xs ≠ []) (hs : xs.Pairwise (fun x y => strLe x.1 y.1 = true)) (text : Str)
    (h : List.Forall₂ (fun line x => GraphLine line x.1 x.2) (fileLines text) xs) :
    ∃ u, LR.load t text = (u, .ok ()) ∧ HoldsPairs t u (fun l r c => Crash.lastVal xs l r = some c) := by
  obtain ⟨o, l, d, g1, g2, g3, g4, g5, g6, g7, g8, g9⟩ := Crash.lr_lines xs hs _ h
  have hd := g7.1 hne
  have hw : WF2 (Crash.held o l d) := by
    unfold Crash.held
    rw [if_neg hd]
    have hmem : ∀ a t, (a, t) ∈ Dict.set o l d → Dict.WF t ∧ t ≠ [] := by
      intro a t hm
      have := (Dict.mem_iff_get? (g2.set l d)).1 hm
      rw [Dict.get?_set] at this
      split at this
      · cases this; exact ⟨g3, hd⟩
      · exact g8 a t (Dict.mem_of_get? this)
    exact ⟨g2.set _ _, fun a t hm => (hmem a t hm).1, fun a t hm => (hmem a t hm).2⟩
  have hgo : LR.loadGo [] [] [] (fileLines text) = .ok (Crash.held o l d) := by
    have := g1 []
    rw [List.append_nil] at this
    rw [this]; rfl
  have hn : Crash.held o l d ≠ [] := by
    unfold Crash.held
    rw [if_neg hd]
    intro hn
    have := Dict.get?_set o l l d
    rw [hn, if_pos rfl] at this
    cases this
  generalize Crash.held o l d = o at *
  obtain ⟨rw1, rw2⟩ := LR.reverse_spec hw
  refine ⟨{ t with lr := o, rl := LR.reverse o, origin := some o }, ?_, ?_, ?_, ?_, rfl, rfl⟩
  · unfold LR.load; rw [hgo]; dsimp only; rw [LR.checkLrgraph, if_neg hn]
  · intro l r c
    show (r, c) ∈ sorted LR.countLe (row o l) ↔ _
    rw [mem_sorted, Dict.mem_iff_get? (hw.row_wf l), ← get2_eq_row, g9]
  · intro l r c
    show (l, c) ∈ sorted LR.countLe (row (LR.reverse o) r) ↔ _
    rw [mem_sorted, Dict.mem_iff_get? (rw1.row_wf r), ← get2_eq_row, rw2]
    by_cases hr : r = [] <;> simp [hr, g9]
  · unfold LR.reset
    dsimp only
    rw [if_neg hn, LR.checkLrgraph, if_neg hn]

private theorem lastVal_mem (xs : List (Str × Str × Int)) (hk : (xs.map (fun x => (x.1, x.2.1))).Nodup) (l r : Str) (c : Int) :
    Crash.lastVal xs l r = some c ↔ (l, r, c) ∈ xs := by
  induction xs using List.reverseRecOn with
  | nil => simp [Crash.lastVal]
  | append_singleton xs x ih =>
    rw [List.map_append, List.nodup_append] at hk
    rw [Crash.lastVal_append]
    obtain ⟨l', r', c'⟩ := x
    by_cases h : l' = l ∧ r' = r
    · obtain ⟨rfl, rfl⟩ := h
      rw [if_pos ⟨rfl, rfl⟩]
      have hn : (l', r', c) ∉ xs := fun hm => hk.2.2 (l', r') (List.mem_map.2 ⟨_, hm, rfl⟩) (l', r') (by simp) rfl
      simp [hn, eq_comm]
    · rw [if_neg h, ih hk.1]
      have : (l, r, c) ≠ (l', r', c') := fun e => h ⟨(congrArg (·.1) e).symm, (congrArg (·.2.1) e).symm⟩
      simp [this]

/-- **C98** (`LRGraph`) Whatever is left of the file, loading it gives the pairs written completely, or raises and leaves the current graph alone - or it succeeds and has read the pair after
    them with a count that has lost its last `j` digits, or has taken a right part that begins with a number, `l 2018년 3`, for a count of its left part alone. An empty rest raises
    `IndexError`. -/
theorem C98_graph (s t : LR.State) (g : Nested Str) (ho : s.origin = some g) (hg : WF2 g) (hw : WritableGraph g) (hc : ∀ l r c, get2 g l r = some c → 0 ≤ c)
    (text part : Str) (hsv : LR.save s = .ok text) (hp : part <+: text) :
    ∃ (es : List (Str × Str × Int)) (k : Nat) (u : LR.State) (res : PyM Unit),
      (∀ l r c, (l, r, c) ∈ es ↔ get2 g l r = some c) ∧ (es.map (fun x => (x.1, x.2.1))).Nodup ∧
      es.Pairwise (fun x y => strLe x.1 y.1 = true ∧ (x.1 = y.1 → strLe x.2.1 y.2.1 = true)) ∧ k ≤ es.length ∧ LR.load t part = (u, res) ∧
      (part = [] ∧ k = 0 ∧ res = .error .indexError ∧ u.lr = t.lr ∧ u.rl = t.rl ∨
       res = .error .valueError ∧ k < es.length ∧ u.lr = t.lr ∧ u.rl = t.rl ∨
       res = .ok () ∧ HoldsPairs t u (fun l r c => (l, r, c) ∈ es.take k) ∨
       res = .ok () ∧ (∃ l1 r1 c1, ∃ j : Nat, es[k]? = some (l1, r1, c1) ∧ (0 < c1 → 0 < c1 / 10 ^ j) ∧
        HoldsPairs t u (fun l r c => (l, r, c) ∈ es.take k ++ [(l1, r1, c1 / 10 ^ j)])) ∨
       res = .ok () ∧ ∃ l1 r1 c1 r' n, es[k]? = some (l1, r1, c1) ∧ r' ≠ [] ∧ r' <+: r1 ∧ parseInt r' = .ok n ∧
        HoldsPairs t u (fun l r c => if l = l1 ∧ r = [] then c = n else (l, r, c) ∈ es.take k)) := by
  let le1 := fun x y : Str × Dict Str Int => strLe x.1 y.1
  let le2 := fun x y : Str × Int => strLe x.1 y.1
  have pre : ∀ {ν : Type}, TotalPre (fun x y : Str × ν => strLe x.1 y.1) := fun {ν} => ⟨fun _ _ _ h1 h2 => strLe_trans _ _ _ h1 h2, fun _ _ => strLe_total _ _⟩
  obtain ⟨es, hes⟩ : ∃ es : List (Str × Str × Int), es = (sorted le1 g).flatMap (fun lt => (sorted le2 lt.2).map (fun rc => (lt.1, rc))) := ⟨_, rfl⟩
  have hmem0 : ∀ l r c, (l, r, c) ∈ es ↔ ∃ tb, (l, tb) ∈ g ∧ (r, c) ∈ tb := by
    intro l r c
    rw [hes, List.mem_flatMap]
    constructor
    · rintro ⟨⟨a, tb⟩, h1, h2⟩
      obtain ⟨rc, h3, h4⟩ := List.mem_map.1 h2
      cases h4
      exact ⟨tb, mem_sorted.1 h1, mem_sorted.1 h3⟩
    · rintro ⟨tb, h1, h2⟩
      exact ⟨(l, tb), mem_sorted.2 h1, List.mem_map.2 ⟨(r, c), mem_sorted.2 h2, rfl⟩⟩
  have hmem : ∀ l r c, (l, r, c) ∈ es ↔ get2 g l r = some c := by
    intro l r c
    rw [hmem0]
    unfold get2
    rw [Option.bind_eq_some_iff]
    constructor
    · rintro ⟨tb, h1, h2⟩
      exact ⟨tb, Dict.get?_of_mem hg.outer h1, Dict.get?_of_mem (hg.inner l tb h1) h2⟩
    · rintro ⟨tb, h1, h2⟩
      exact ⟨tb, Dict.mem_of_get? h1, Dict.mem_of_get? h2⟩
  have hwr : ∀ x ∈ es, Writable x.1 ∧ (x.2.1 = [] ∨ Writable x.2.1) ∧ 0 ≤ x.2.2 := by
    rintro ⟨l, r, c⟩ hx
    obtain ⟨tb, h1, h2⟩ := (hmem0 l r c).1 hx
    exact ⟨(hw l tb h1).1, (hw l tb h1).2 r c h2, hc l r c ((hmem l r c).1 hx)⟩
  have hord : es.Pairwise (fun x y => strLe x.1 y.1 = true ∧ (x.1 = y.1 → strLe x.2.1 y.2.1 = true)) ∧ (es.map (fun x => (x.1, x.2.1))).Nodup := by
    have hrow : ∀ l tb, (l, tb) ∈ g → ((sorted le2 tb).map (fun rc => (l, rc))).Pairwise
        (fun x y : Str × Str × Int => (strLe x.1 y.1 = true ∧ (x.1 = y.1 → strLe x.2.1 y.2.1 = true)) ∧ (x.1, x.2.1) ≠ (y.1, y.2.1)) := by
      intro l tb hm
      have h1 : (sorted le2 tb).Pairwise (fun x y => le2 x y = true) := pairwise_sorted pre tb
      have h2 : ((sorted le2 tb).map (·.1)).Nodup := (((sorted_perm le2 tb).map _).nodup_iff).2 (hg.inner l tb hm)
      unfold List.Nodup at h2
      rw [List.pairwise_map] at h2 ⊢
      refine (h1.and h2).imp ?_
      rintro x y ⟨a, b⟩
      exact ⟨⟨strLe_refl l, fun _ => a⟩, fun e => b (congrArg Prod.snd e)⟩
    have hall : es.Pairwise (fun x y => (strLe x.1 y.1 = true ∧ (x.1 = y.1 → strLe x.2.1 y.2.1 = true)) ∧ (x.1, x.2.1) ≠ (y.1, y.2.1)) := by
      rw [hes, List.pairwise_flatMap]
      refine ⟨fun lt hlt => hrow lt.1 lt.2 (mem_sorted.1 hlt), ?_⟩
      have h1 : (sorted le1 g).Pairwise (fun x y => le1 x y = true) := pairwise_sorted pre g
      have h2 : ((sorted le1 g).map (·.1)).Nodup := (((sorted_perm le1 g).map _).nodup_iff).2 hg.outer
      unfold List.Nodup at h2
      rw [List.pairwise_map] at h2
      refine (h1.and h2).imp ?_
      rintro a b ⟨h3, h4⟩ x hx y hy
      obtain ⟨rc, _, rfl⟩ := List.mem_map.1 hx
      obtain ⟨rc', _, rfl⟩ := List.mem_map.1 hy
      exact ⟨⟨h3, fun e => absurd e h4⟩, fun e => h4 (Prod.mk.inj e).1⟩
    refine ⟨hall.imp (fun h => h.1), ?_⟩
    unfold List.Nodup
    rw [List.pairwise_map]
    exact hall.imp (fun h => h.2)
  have hord1 : es.Pairwise (fun x y => strLe x.1 y.1 = true) := hord.1.imp (fun h => h.1)
  have htext : text = (es.map (fun x => LR.saveLine x.1 x.2)).flatMap (fun l => l ++ ['\n']) := by
    unfold LR.save at hsv
    rw [ho] at hsv
    rw [← Except.ok.inj hsv, hes, List.flatMap_map, List.flatMap_assoc]
    congr 1; funext lt
    rw [List.flatMap_map]
  have hnl : ∀ l ∈ es.map (fun x => LR.saveLine x.1 x.2), '\n' ∉ l ∧ '\r' ∉ l := by
    intro l hl
    obtain ⟨⟨a, r, c⟩, hx, rfl⟩ := List.mem_map.1 hl
    obtain ⟨w1, w2, _⟩ := hwr _ hx
    have h1 := Crash.nospace_nl w1.2
    have h2 := Crash.nospace_nl (intStr_word c).2
    have h3 : '\n' ∉ r ∧ '\r' ∉ r := by
      rcases w2 with w2 | w2
      · have : r = [] := w2
        rw [this]; simp
      · exact Crash.nospace_nl w2.2
    have a1 : '\n' ≠ ' ' := by decide
    have a2 : '\r' ≠ ' ' := by decide
    simp [LR.saveLine, h1, h2, h3, a1, a2]
  rw [htext] at hp
  obtain ⟨k, q, hk, rfl, hq⟩ := Crash.prefix_lines _ part hp
  rw [List.length_map] at hk
  have hqnl : '\n' ∉ q ∧ '\r' ∉ q := by
    rcases hq with rfl | ⟨l, hl, hq⟩
    · simp
    · exact Crash.nonl_of_prefix hq (hnl l (List.mem_of_getElem? hl))
  have hlines := Crash.fileLines_cut ((es.map (fun x => LR.saveLine x.1 x.2)).take k) (fun l hl => hnl l (List.mem_of_mem_take hl)) q hqnl
  generalize hpart : ((es.map (fun x => LR.saveLine x.1 x.2)).take k).flatMap (fun l => l ++ ['\n']) ++ q = part at *
  rw [← List.map_take, List.map_map] at hlines
  have hfull : List.Forall₂ (fun line x => GraphLine line x.1 x.2) ((es.take k).map ((· ++ ['\n']) ∘ fun x => LR.saveLine x.1 x.2)) (es.take k) := by
    rw [List.forall₂_map_left_iff]
    refine List.forall₂_same.2 (fun x hx => ?_)
    have := hwr x (List.mem_of_mem_take hx)
    exact Crash.graph_full x.1 x.2.1 x.2.2 this.1 this.2.1
  have hordk : (es.take k).Pairwise (fun x y => strLe x.1 y.1 = true) := hord1.sublist (List.take_sublist _ _)
  have hndk : ((es.take k).map (fun x => (x.1, x.2.1))).Nodup := hord.2.sublist ((List.take_sublist _ _).map _)
  have whole : q = [] → ∃ (u : LR.State) (res : PyM Unit), LR.load t part = (u, res) ∧
      (part = [] ∧ k = 0 ∧ res = .error .indexError ∧ u.lr = t.lr ∧ u.rl = t.rl ∨ res = .ok () ∧ HoldsPairs t u (fun l r c => (l, r, c) ∈ es.take k)) := by
    intro hq0
    rw [if_pos hq0, List.append_nil] at hlines
    by_cases hk0 : es.take k = []
    · have hk1 : k = 0 := by
        rcases List.take_eq_nil_iff.1 hk0 with h | h
        · exact h
        · rw [h] at hk; simpa using hk
      have hp0 : part = [] := by rw [← hpart, hk1, hq0]; rfl
      obtain ⟨u, h1, h2, h3, _⟩ := (C27_load_error t part).2 hp0
      exact ⟨u, _, h1, Or.inl ⟨hp0, hk1, rfl, h2, h3⟩⟩
    · obtain ⟨u, h1, h2⟩ := load_lines t (es.take k) hk0 hordk part (hlines ▸ hfull)
      refine ⟨u, .ok (), h1, Or.inr ⟨rfl, ?_⟩⟩
      simpa only [lastVal_mem _ hndk] using h2
  by_cases hq0 : q = []
  · obtain ⟨u, res, h1, h2 | h2⟩ := whole hq0
    · exact ⟨es, k, u, res, hmem, hord.2, hord.1, hk, h1, Or.inl h2⟩
    · exact ⟨es, k, u, res, hmem, hord.2, hord.1, hk, h1, Or.inr (Or.inr (Or.inl h2))⟩
  obtain ⟨l, hl, hq⟩ := hq.resolve_left hq0
  rw [if_neg hq0] at hlines
  rw [List.getElem?_map, Option.map_eq_some_iff] at hl
  obtain ⟨⟨l1, r1, c1⟩, hx, rfl⟩ := hl
  obtain ⟨w1, w2, w3⟩ := hwr _ (List.mem_of_getElem? hx)
  obtain ⟨hlt, hxe⟩ := List.getElem?_eq_some_iff.1 hx
  have hsub : (es.take k ++ [(l1, r1, c1)]).Sublist es := by
    rw [← hxe, List.take_append_getElem]; exact List.take_sublist _ _
  have hord2 : ∀ (r : Str) (n : Int), (es.take k ++ [(l1, r, n)]).Pairwise (fun x y : Str × Str × Int => strLe x.1 y.1 = true) := by
    intro r n
    have := List.pairwise_append.1 (hord1.sublist hsub)
    refine List.pairwise_append.2 ⟨this.1, List.pairwise_singleton _ _, fun x hx y hy => ?_⟩
    rw [List.mem_singleton.1 hy]
    exact this.2.2 x hx (l1, r1, c1) (by simp)
  have hfull2 : ∀ r n, GraphLine q l1 (r, n) → List.Forall₂ (fun line x => GraphLine line x.1 x.2) (fileLines part) (es.take k ++ [(l1, r, n)]) := by
    intro r n h
    rw [hlines]
    exact List.rel_append hfull (.cons h .nil)
  rcases Crash.graph_line l1 r1 c1 w1 w2 w3 q hq0 hq with ⟨hbad, hbn⟩ | ⟨j, hj, hpos⟩ | ⟨r', n, h1, h2, h3, h4⟩
  · obtain ⟨o, l, d, g1, _⟩ := Crash.lr_lines _ hordk _ hfull
    have hgo : LR.loadGo [] [] [] (fileLines part) = .error .valueError := by
      rw [hlines, g1, LR.loadGo, bad_line hbad, if_neg hbn]
    have hload : LR.load t part = ({ t with origin := some (LR.loadLeft [] [] [] (fileLines part)) }, .error .valueError) := by
      unfold LR.load; rw [hgo]
    exact ⟨es, k, _, _, hmem, hord.2, hord.1, hk, hload, Or.inr (Or.inl ⟨rfl, hlt, rfl, rfl⟩)⟩
  · obtain ⟨u, h5, h6⟩ := load_lines t _ (by simp) (hord2 r1 (c1 / 10 ^ j)) part (hfull2 _ _ hj)
    refine ⟨es, k, u, _, hmem, hord.2, hord.1, hk, h5, Or.inr (Or.inr (Or.inr (Or.inl ⟨rfl, l1, r1, c1, j, hx, hpos, ?_⟩)))⟩
    have hnd : ((es.take k ++ [(l1, r1, c1 / 10 ^ j)]).map (fun x => (x.1, x.2.1))).Nodup := by
      have := hord.2.sublist (hsub.map (fun x => (x.1, x.2.1)))
      rw [List.map_append] at this ⊢
      exact this
    simpa only [lastVal_mem _ hnd] using h6
  · obtain ⟨u, h5, h6⟩ := load_lines t _ (by simp) (hord2 [] n) part (hfull2 _ _ h4)
    refine ⟨es, k, u, _, hmem, hord.2, hord.1, hk, h5, Or.inr (Or.inr (Or.inr (Or.inr ⟨rfl, l1, r1, c1, r', n, hx, h1, h2, h3, ?_⟩)))⟩
    have he : (fun l r c => Crash.lastVal (es.take k ++ [(l1, [], n)]) l r = some c) = (fun l r c => if l = l1 ∧ r = [] then c = n else (l, r, c) ∈ es.take k) := by
      funext l r c
      rw [Crash.lastVal_append]
      by_cases hlr : l = l1 ∧ r = []
      · obtain ⟨rfl, rfl⟩ := hlr
        rw [if_pos ⟨rfl, rfl⟩, if_pos ⟨rfl, rfl⟩]
        exact propext ⟨fun h => (Option.some.inj h).symm, fun h => by rw [h]⟩
      · rw [if_neg (fun h => hlr ⟨h.1.symm, h.2.symm⟩), if_neg hlr]
        exact propext (lastVal_mem _ hndk l r c)
    rwa [he] at h6


/-- **C98** (`BaseVectorizer`) Whatever is left of the vocabulary file, loading it succeeds: the terms written completely come back with their indices, except possibly one, and if
    something was left of the next term then that beginning is a term too, with the next index. If it happens to be one of the terms before it, that term's index is overwritten. -/
theorem C98_vocab (s : VZ.State) (hc : Coding s) (fname : Str) (fs : Dict Str Str) (hterms : ∀ t ∈ s.idx2vocab, '\n' ∉ t ∧ '\r' ∉ t ∧ strip t = t)
    (text part : Str) (hsv : Dict.get? (VZ.save s fname fs) (VZ.vocabName fname) = some text) (hp : part <+: text)
    (fs' : Dict Str Str) (hf : Dict.get? fs' (VZ.vocabName fname) = some part) :
    ∃ (k : Nat) (u : VZ.State), k ≤ s.idx2vocab.length ∧ VZ.load fname fs' = .ok u ∧
      (u.idx2vocab = s.idx2vocab.take k ∧ u.nVocabs = k ∧
        (∀ t i, Dict.get? u.vocabulary t = some i ↔ Dict.get? s.vocabulary t = some i ∧ i < k) ∨
       ∃ t0 q, s.idx2vocab[k]? = some t0 ∧ q ≠ [] ∧ q <+: t0 ∧ u.idx2vocab = s.idx2vocab.take k ++ [strip q] ∧ u.nVocabs = k + 1 ∧
        (∀ t i, Dict.get? u.vocabulary t = some i ↔ if t = strip q then i = k else Dict.get? s.vocabulary t = some i ∧ i < k)) := by
  have htext : text = s.idx2vocab.flatMap (fun l => l ++ ['\n']) := by
    unfold VZ.save at hsv
    rw [Dict.get?_set, if_pos rfl] at hsv
    exact (Option.some.inj hsv).symm
  rw [htext] at hp
  obtain ⟨k, q, hk, rfl, hq⟩ := Crash.prefix_lines _ part hp
  have hnl : ∀ l ∈ s.idx2vocab, '\n' ∉ l ∧ '\r' ∉ l := fun l hl => ⟨(hterms l hl).1, (hterms l hl).2.1⟩
  have hqnl : '\n' ∉ q ∧ '\r' ∉ q := by
    rcases hq with rfl | ⟨l, hl, hq⟩
    · simp
    · exact Crash.nonl_of_prefix hq (hnl l (List.mem_of_getElem? hl))
  have hlines := Crash.fileLines_cut (s.idx2vocab.take k) (fun l hl => hnl l (List.mem_of_mem_take hl)) q hqnl
  obtain ⟨u, h1, h2, h3, h4⟩ := (C36_load fname fs').2 _ hf
  have hlen : (s.idx2vocab.take k).length = k := by rw [List.length_take]; omega
  have hst : ((s.idx2vocab.take k).map (· ++ ['\n'])).map strip = s.idx2vocab.take k := by
    rw [List.map_map]
    conv => rhs; rw [← List.map_id (s.idx2vocab.take k)]
    apply List.map_congr_left
    intro t ht
    exact vz_strip_line t (hterms t (List.mem_of_mem_take ht)).2.2
  rw [hlines] at h2 h3
  have hinv : ∀ t i, (s.idx2vocab.take k)[i]? = some t ↔ Dict.get? s.vocabulary t = some i ∧ i < k := by
    intro t i
    rw [hc.inv, List.getElem?_take]
    split <;> simp_all
  by_cases hq0 : q = []
  · rw [if_pos hq0, List.append_nil] at h2 h3
    rw [hst] at h2
    rw [List.length_map, hlen] at h3
    refine ⟨k, u, hk, h1, Or.inl ⟨h2, h3, fun t i => ?_⟩⟩
    rw [h4, h2, hinv]
    constructor
    · exact fun h => h.1
    · refine fun h => ⟨h, fun j hj => ?_⟩
      rw [hinv, h.1] at hj
      exact Nat.le_of_eq (Option.some.inj hj.1).symm
  · obtain ⟨t0, ht0, hq⟩ := hq.resolve_left hq0
    rw [if_neg hq0] at h2 h3
    rw [List.map_append, hst] at h2
    rw [List.length_append, List.length_map, hlen] at h3
    refine ⟨k, u, hk, h1, Or.inr ⟨t0, q, ht0, hq0, hq, h2, h3, fun t i => ?_⟩⟩
    have happ : ∀ t j, (s.idx2vocab.take k ++ [strip q])[j]? = some t ↔ (Dict.get? s.vocabulary t = some j ∧ j < k) ∨ j = k ∧ t = strip q := by
      intro t j
      rw [← hinv]
      rcases Nat.lt_trichotomy j k with hj | hj | hj
      · rw [List.getElem?_append_left (by omega)]
        exact ⟨.inl, fun h => h.resolve_right (fun h => by omega)⟩
      · subst hj
        rw [List.getElem?_append_right (by omega), hlen, List.getElem?_eq_none (l := s.idx2vocab.take j) (by omega)]
        simp [eq_comm]
      · rw [List.getElem?_append_right (by omega), hlen, List.getElem?_eq_none (l := s.idx2vocab.take k) (by omega),
          List.getElem?_eq_none (l := [strip q]) (by simp; omega)]
        simp; omega
    rw [h4, h2]
    simp only [List.map_cons, List.map_nil, happ]
    by_cases hx : t = strip q
    · rw [if_pos hx]
      constructor
      · rintro ⟨h5, h6⟩
        have := h6 k (.inr ⟨rfl, hx⟩)
        rcases h5 with h5 | h5 <;> omega
      · rintro rfl
        exact ⟨.inr ⟨rfl, hx⟩, fun j h => by rcases h with h | h <;> omega⟩
    · rw [if_neg hx]
      constructor
      · exact fun h => h.1.resolve_right (fun h => hx h.2)
      · refine fun h => ⟨.inl h, fun j hj => ?_⟩
        rcases hj with hj | hj
        · rw [h.1] at hj
          exact Nat.le_of_eq (Option.some.inj hj.1).symm
        · exact absurd hj.2 hx

/-! The cases happen. -/

/-- 나 was counted 12 times; the file was cut before the 2 -/
theorem C98_lost_digit : EC.save ⟨[("가".toList, 15), ("나".toList, 12)], 27, 0⟩ = "가 15\n나 12\n".toList ∧
    EC.load ⟨[], 0, 0⟩ "가 15\n나 1".toList = (⟨[("가".toList, 15), ("나".toList, 1)], 16, 0⟩, .ok ()) ∧
    EC.load ⟨[], 5, 0⟩ "가 15\n나 ".toList = (⟨[("가".toList, 15)], 5, 0⟩, .error .valueError) := by
  refine ⟨by decide +kernel, by decide +kernel, by decide +kernel⟩

/-- a right part that begins with a digit: `서기 2018년 3` cut in the year reads as 201 occurrences of 서기 by itself; and after a failed load the graph in use is still the old one, but
    `reset_lrgraph` gives the new, incomplete one -/
theorem C98_wrong_pair :
    LR.save ⟨[], [], some [("서기".toList, [("2018년".toList, 3)])], 10, 9⟩ = .ok "서기 2018년 3\n".toList ∧
    LR.load ⟨[], [], some [], 10, 9⟩ "서기 201".toList =
      (⟨[("서기".toList, [([], 201)])], [], some [("서기".toList, [([], 201)])], 10, 9⟩, .ok ()) ∧
    (let old : LR.State := ⟨[("너".toList, [("를".toList, 4)])], [("를".toList, [("너".toList, 4)])], some [("너".toList, [("를".toList, 4)])], 10, 9⟩
     let u := (LR.load old "가 은 2\n나 는 5\n나".toList).1
     (LR.load old "가 은 2\n나 는 5\n나".toList).2 = .error .valueError ∧ u.lr = old.lr ∧ (LR.reset u).1.lr = [("가".toList, [("은".toList, 2)])]) := by
  refine ⟨by decide +kernel, by decide +kernel, by decide +kernel, by decide +kernel, by decide +kernel⟩

/-- 가나 cut to 가, which is a term already: its index becomes 1 -/
theorem C98_wrong_index :
    Dict.get? (VZ.save ⟨[("가".toList, 0), ("가나".toList, 1)], ["가".toList, "가나".toList], 2⟩ "v".toList []) "v.vocab".toList = some "가\n가나\n".toList ∧
    VZ.load "v".toList [("v.vocab".toList, "가\n가".toList)] = .ok ⟨[("가".toList, 1)], ["가".toList, "가".toList], 2⟩ := by
  refine ⟨by decide +kernel, by decide +kernel⟩

/-! The hypotheses are met by the objects above. -/
example : (∀ e ∈ Dict.keys [("가".toList, (15 : Int)), ("나".toList, 12)], Writable e) ∧ "가 15\n나 1".toList <+: EC.save ⟨[("가".toList, 15), ("나".toList, 12)], 27, 0⟩ := by
  refine ⟨?_, by decide +kernel⟩
  unfold Writable; decide
example : WritableGraph [("서기".toList, [("2018년".toList, 3)])] := by
  unfold WritableGraph Writable
  intro l tb h
  simp only [List.mem_singleton, Prod.mk.injEq] at h
  obtain ⟨rfl, rfl⟩ := h
  refine ⟨by decide, fun r c h => Or.inr ?_⟩
  simp only [List.mem_singleton, Prod.mk.injEq] at h
  obtain ⟨rfl, rfl⟩ := h
  decide

end Props
