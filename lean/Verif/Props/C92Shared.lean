import Verif.Model.V2Heap
import Verif.Props.C92
/-! C92, for several extractors that work on the same graph. -/
namespace Props
open Py V2Heap

/-- the calls addressed to the `j`-th extractor -/
def v2CallsTo (j : Nat) (cs : List (Nat × Op)) : List (Nat × Op) := cs.filter (fun c => decide (c.1 = j))

/-- the call puts back what it takes out of the graph (every call but `extract(reset_lrgraph=False)`) -/
def Resets : Op → Prop
  | .train => True
  | .extract _ _ _ r => r = true

private theorem get_set' {α : Type} {l : List α} {i : Nat} {o : α} (h : l[i]? = some o) (x : α) (j : Nat) : (l.set i x)[j]? = if i = j then some x else l[j]? := by
  have hil : i < l.length := (List.getElem?_eq_some_iff.1 h).1
  rw [List.getElem?_set]
  by_cases e : i = j
  · subst e; simp [hil]
  · simp [e]

/-- one call -/
private theorem call_spec' {entLt : List Int → Rat → Bool} {w w' : World} {i : Nat} {op : Op} (h : call entLt w i op = .ok w') :
    ∃ o s, w.objs[i]? = some o ∧ w'.objs = w.objs.set i (o.1, s) ∧ s.lrgraph = some w'.graph ∧
      ((op = .train ∧ w'.graph = w.graph ∧ V2.train o.1 (view w o) (.graph w.graph) = .ok s) ∨
       (∃ enum m f r out g', op = .extract enum m f r ∧ V2.extract o.1 entLt enum (view w o) m f r = .ok (s, out) ∧ V2.SameBase g' w.graph ∧
         w'.graph = if r then (LR.reset g').1 else g')) := by
  unfold call at h
  cases ho : w.objs[i]? with
  | none => rw [ho] at h; cases h
  | some o =>
    rw [ho] at h
    cases op with
    | train =>
      dsimp only at h
      cases ht : V2.train o.1 (view w o) (.graph w.graph) with
      | error e => rw [ht] at h; cases h
      | ok s =>
        rw [ht] at h; cases h
        refine ⟨o, s, rfl, rfl, ?_, Or.inl ⟨rfl, rfl, ht⟩⟩
        have ht : V2.trainWithLrgraph (view w o) w.graph = .ok s := ht
        unfold V2.trainWithLrgraph at ht
        rw [if_pos rfl] at ht
        split at ht
        · cases ht; rfl
        · cases ht
    | extract enum m f r =>
      dsimp only at h
      cases ht : V2.extract o.1 entLt enum (view w o) m f r with
      | error e => rw [ht] at h; cases h
      | ok x =>
        obtain ⟨s, out⟩ := x
        rw [ht] at h; cases h
        have hl : (view w o).lrgraph = some w.graph := by
          cases hn : o.2.lrgraph with
          | none =>
            exfalso
            have : (view w o).lrgraph = none := by show o.2.lrgraph.map _ = none; rw [hn]; rfl
            unfold V2.extract at ht
            rw [this] at ht
            cases ht
          | some g => show o.2.lrgraph.map _ = _; rw [hn]; rfl
        obtain ⟨g', hb, hg'⟩ := v2_base_extract hl ht
        refine ⟨o, s, rfl, rfl, ?_, Or.inr ⟨enum, m, f, r, out, g', rfl, ht, hb, ?_⟩⟩
        · show s.lrgraph = some (s.lrgraph.getD w.graph); rw [hg']; rfl
        · show s.lrgraph.getD w.graph = _; rw [hg']; rfl

private theorem view_graph {w w' : World} (h : w'.graph = w.graph) (o : V2.Params × V2.State) : view w' o = view w o := by
  unfold view; rw [h]

/-- C92: extractors working on one graph. Whatever calls are made on them (and do not raise), resetting the graph afterwards gives what resetting it before would have given. If the graph is
    as just made (resetting it changes nothing) and no call asks for `reset_lrgraph=False`, the graph is always the same between calls, and every extractor is in the state, and
    answers, as if only its own calls had been made. -/
theorem C92_shared (entLt : List Int → Rat → Bool) (w w' : World) (cs : List (Nat × Op)) (o : Nested Str) (ho : w.graph.origin = some o) (hne : o ≠ [])
    (h : calls entLt w cs = .ok w') :
    (LR.reset w'.graph).1 = (LR.reset w.graph).1 ∧
    ((LR.reset w.graph).1 = w.graph → (∀ c ∈ cs, Resets c.2) → w'.graph = w.graph ∧
      ∀ j < w.objs.length, ∃ u a b, calls entLt w (v2CallsTo j cs) = .ok u ∧ w'.objs[j]? = some a ∧ u.objs[j]? = some b ∧ a.1 = b.1 ∧ view w' a = view u b ∧
        ∀ enum m f r, answer entLt w' j enum m f r = answer entLt u j enum m f r) := by
  have hbase : ∀ (g' g : LR.State) (r : Bool), g.origin = some o → V2.SameBase g' g →
      (if r then (LR.reset g').1 else g').origin = some o ∧ (LR.reset (if r then (LR.reset g').1 else g')).1 = (LR.reset g).1 := by
    intro g' g r hg hb
    have hg' : g'.origin = some o := hb.1.trans hg
    have hr : (LR.reset g').1 = { g' with lr := o, rl := LR.reverse o } := by
      unfold LR.reset LR.checkLrgraph
      rw [hg']; dsimp only; rw [if_neg hne, if_neg hne]
    cases r with
    | false => exact ⟨hg', v2_reset_base hb hg hne⟩
    | true =>
      rw [if_pos rfl]
      have ho1 : (LR.reset g').1.origin = some o := by rw [hr]; exact hg'
      refine ⟨ho1, ?_⟩
      rw [← v2_reset_base hb hg hne]
      apply v2_reset_base ?_ hg' hne
      rw [hr]
      exact ⟨rfl, rfl, rfl⟩
  have hstep : ∀ (v v' : World) (i : Nat) (op : Op), v.graph.origin = some o → call entLt v i op = .ok v' →
      v'.graph.origin = some o ∧ (LR.reset v'.graph).1 = (LR.reset v.graph).1 ∧ ((LR.reset v.graph).1 = v.graph → Resets op → v'.graph = v.graph) := by
    intro v v' i op hv hc
    obtain ⟨_, _, _, _, _, hcase⟩ := call_spec' hc
    rcases hcase with ⟨_, hg, _⟩ | ⟨_, _, _, r, _, g', hop, _, hb, hg⟩
    · rw [hg]; exact ⟨hv, rfl, fun _ _ => rfl⟩
    · obtain ⟨h1, h2⟩ := hbase g' v.graph r hv hb
      rw [← hg] at h1 h2
      refine ⟨h1, h2, fun hfix hres => ?_⟩
      subst hop
      have hr : r = true := hres
      subst hr
      rw [hg, if_pos rfl, v2_reset_base hb hv hne, hfix]
  have hall : ∀ (cs : List (Nat × Op)) (v : World), v.graph.origin = some o → calls entLt v cs = .ok w' →
      (LR.reset w'.graph).1 = (LR.reset v.graph).1 := by
    intro cs
    induction cs with
    | nil => intro v _ h; cases h; rfl
    | cons c cs ih =>
      intro v hv h
      unfold calls at h
      cases hc : call entLt v c.1 c.2 with
      | error e => rw [hc] at h; cases h
      | ok v1 =>
        rw [hc] at h
        obtain ⟨h1, h2, _⟩ := hstep v v1 c.1 c.2 hv hc
        rw [ih v1 h1 h, h2]
  refine ⟨hall cs w ho h, ?_⟩
  intro hfix
  have key : ∀ (cs : List (Nat × Op)) (v x : World) (j : Nat), (∀ c ∈ cs, Resets c.2) → v.graph = w.graph → x.graph = w.graph → (∃ a b, v.objs[j]? = some a ∧ x.objs[j]? = some b ∧
      a.1 = b.1 ∧ view v a = view x b) → calls entLt v cs = .ok w' → w'.graph = w.graph ∧
      ∃ u a b, calls entLt x (v2CallsTo j cs) = .ok u ∧ u.graph = w.graph ∧ w'.objs[j]? = some a ∧ u.objs[j]? = some b ∧ a.1 = b.1 ∧ view w' a = view u b := by
    intro cs
    induction cs with
    | nil =>
      rintro v x j _ hv hx ⟨a, b, h1, h2, h3, h4⟩ h
      cases h
      exact ⟨hv, x, a, b, rfl, hx, h1, h2, h3, h4⟩
    | cons c cs ih =>
      rintro v x j hres hv hx ⟨a, b, h1, h2, h3, h4⟩ h
      unfold calls at h
      cases hc : call entLt v c.1 c.2 with
      | error e => rw [hc] at h; cases h
      | ok v1 =>
        rw [hc] at h
        have hv1 := (hstep v v1 c.1 c.2 (by rw [hv]; exact ho) hc).2.2 (by rw [hv]; exact hfix) (hres c (List.mem_cons_self ..))
        have hres' : ∀ c ∈ cs, Resets c.2 := fun c' h' => hres c' (List.mem_cons_of_mem _ h')
        obtain ⟨p, s, hp, hobjs, hsl, hcase⟩ := call_spec' hc
        by_cases e : c.1 = j
        · rw [e, h1] at hp
          cases hp
          -- the same call on the other side
          have hx1 : ∃ x1, call entLt x c.1 c.2 = .ok x1 ∧ x1.graph = w.graph ∧ x1.objs[j]? = some (b.1, s) := by
            unfold call
            rw [e, h2]
            rcases hcase with ⟨hop, _, ht⟩ | ⟨enum, m, f, r, out, g', hop, ht, hb, hg⟩
            · rw [hop]
              dsimp only
              rw [← h3, ← h4, hx, ← hv, ht]
              exact ⟨_, rfl, rfl, by show (x.objs.set j _)[j]? = _; rw [get_set' h2, if_pos rfl]⟩
            · rw [hop]
              dsimp only
              rw [← h3, ← h4, ht]
              refine ⟨_, rfl, ?_, by show (x.objs.set j _)[j]? = _; rw [get_set' h2, if_pos rfl]⟩
              show s.lrgraph.getD x.graph = w.graph
              rw [hsl]; exact hv1.trans hv
          obtain ⟨x1, hcx, hgx, hox⟩ := hx1
          have ho1 : v1.objs[j]? = some (a.1, s) := by rw [hobjs, e, get_set' h1, if_pos rfl]
          obtain ⟨r1, u, a', b', k1, k2⟩ := ih v1 x1 j hres' (hv1.trans hv) hgx ⟨(a.1, s), (b.1, s), ho1, hox, h3, by unfold view; dsimp only; rw [hgx, hv1, hv]⟩ h
          refine ⟨r1, u, a', b', ?_, k2⟩
          unfold v2CallsTo
          rw [List.filter_cons_of_pos (p := fun c : Nat × Op => decide (c.1 = j)) (by simp [e])]
          unfold calls
          rw [hcx]
          exact k1
        · have ho1 : v1.objs[j]? = some a := by rw [hobjs, get_set' hp, if_neg e]; exact h1
          obtain ⟨r1, u, a', b', k1, k2⟩ := ih v1 x j hres' (hv1.trans hv) hx ⟨a, b, ho1, h2, h3, by rw [view_graph hv1, h4]⟩ h
          refine ⟨r1, u, a', b', ?_, k2⟩
          unfold v2CallsTo
          rw [List.filter_cons_of_neg (p := fun c : Nat × Op => decide (c.1 = j)) (by simp [e])]
          exact k1
  intro hres
  have hgr : ∀ (cs : List (Nat × Op)) (v : World), (∀ c ∈ cs, Resets c.2) → v.graph = w.graph → calls entLt v cs = .ok w' → w'.graph = w.graph := by
    intro cs
    induction cs with
    | nil => intro v _ hv h; cases h; exact hv
    | cons c cs ih =>
      intro v hres hv h
      unfold calls at h
      cases hc : call entLt v c.1 c.2 with
      | error e => rw [hc] at h; cases h
      | ok v1 =>
        rw [hc] at h
        have hv1 := (hstep v v1 c.1 c.2 (by rw [hv]; exact ho) hc).2.2 (by rw [hv]; exact hfix) (hres c (List.mem_cons_self ..))
        exact ih v1 (fun c' h' => hres c' (List.mem_cons_of_mem _ h')) (hv1.trans hv) h
  refine ⟨hgr cs w hres rfl h, fun j hj => ?_⟩
  obtain ⟨_, u, a, b, k1, _, k3, k4, k5, k6⟩ := key cs w w j hres rfl rfl ⟨_, _, List.getElem?_eq_getElem hj, List.getElem?_eq_getElem hj, rfl, rfl⟩ h
  refine ⟨u, a, b, k1, k3, k4, k5, k6, fun enum m f r => ?_⟩
  unfold answer
  rw [k3, k4]
  dsimp only
  rw [k5, k6]

/-! ### concrete -/

def sharedFeatures : V2.Features := ⟨["는".toList, "를".toList, "에서".toList], ["다".toList], ["은".toList]⟩
def sharedSentences : List Str := ["학교는 좋다".toList, "학교를 학교에서 갔다".toList, "학교 학교는".toList, "학교장은 학교장는 학교장를".toList]
/-- two extractors and a graph of the sentences -/
def sharedExtractors : PyM World :=
  match EC.construct (V2.counterParams {} 1) (some sharedSentences) with
  | .error e => .error e
  | .ok c => (LR.toLrgraph c 10 9).map (fun g => { graph := g, objs := [({ verbose := false }, { feats := sharedFeatures }), ({ verbose := false }, { feats := sharedFeatures })] })
/-- the words the second extractor returns after some calls, and whether the graph is (still) as made -/
def wordsOfSecond (cs : List (Nat × Op)) : PyM (List Str × Bool) :=
  match sharedExtractors with
  | .error e => .error e
  | .ok w => match calls (fun _ _ => false) w cs with
    | .error e => .error e
    | .ok w' => (answer (fun _ _ => false) w' 1 (fun _ l => l) (3/10) 1 true).map (fun d => (Dict.keys d, decide ((LR.reset w.graph).1 = w.graph ∧ w'.graph = w.graph)))

/-- the hypotheses of `C92_shared` are met; the first extractor does not disturb the second -/
example : wordsOfSecond [(1, .train), (0, .train), (0, .extract (fun _ l => l) (3/10) 1 true)] = .ok (["학교장".toList, "학교".toList], true) := by decide +kernel

/-- C92, finding: an extraction of one extractor with `reset_lrgraph=False` takes all nouns away from another one trained with the same graph. -/
theorem C92_shared_violation : wordsOfSecond [(1, .train), (0, .train)] = .ok (["학교장".toList, "학교".toList], true) ∧
    wordsOfSecond [(1, .train), (0, .train), (0, .extract (fun _ l => l) (3/10) 1 false)] = .ok ([], false) := by
  refine ⟨by decide +kernel, by decide +kernel⟩

end Props
