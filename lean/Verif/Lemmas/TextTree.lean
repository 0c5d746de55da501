import Verif.Lemmas.Text
import Verif.Spec.TextTree
import Verif.Lemmas.TextScan

/-!
# Parsing the tokens of a directive tree
-/

namespace Kajiki.Texts
open Kajiki.Spec.TextTree

/-- `parseBody` with enough steps. -/
def pb (env : TEnv) (stops : List Str) (ts : List TTok) (st : TState) : TBody :=
  parseBody env (ts.length + 1) stops ts st

/-- The nodes without `None`. -/
def view (r : TBody) : Except Err (List Ir × Option TTok × List TTok × TState) := r.map fun r => (present r.1, r.2)

/-- Nodes in front. -/
def pre (xs : List Ir) (r : Except Err (List Ir × Option TTok × List TTok × TState)) :
    Except Err (List Ir × Option TTok × List TTok × TState) := r.map fun r => (xs ++ r.1, r.2)

theorem pre_nil (r) : pre [] r = r := by cases r <;> rfl

theorem pre_pre (xs ys : List Ir) (r) : pre xs (pre ys r) = pre (xs ++ ys) r := by
  cases r with
  | error e => rfl
  | ok r => simp [pre, Except.map]

theorem view_cons_some (x : Ir) (r : TBody) : view (r.cons (some x)) = pre [x] (view r) := by
  cases r <;> rfl

theorem view_cons_none (r : TBody) : view (r.cons none) = view r := by
  cases r <;> rfl

theorem view_ok {r : TBody} {ys stop ts st} (h : view r = .ok (ys, stop, ts, st)) :
    ∃ xs, r = .ok (xs, stop, ts, st) ∧ present xs = ys := by
  obtain ⟨⟨xs, a, b, c⟩, h1, h2⟩ := map_ok h
  cases h2
  exact ⟨xs, h1, rfl⟩

theorem pb_text {env : TEnv} {stops t u ln ts st} (h : unescapeNewlines t = .ok u) :
    pb env stops (.text t ln :: ts) st = (pb env stops ts st).cons (some (.text u none ln)) := by
  unfold pb
  rw [List.length_cons, parseBody]
  simp [h]

theorem pb_expr {env : TEnv} {stops t ln ts st} :
    pb env stops (.expr t ln :: ts) st = (pb env stops ts st).cons (some (.expr t (!env.autoescape) ln)) := by
  unfold pb
  rw [List.length_cons, parseBody]

theorem pb_stop {env : TEnv} {stops n b l ts st} (h : stops.contains n = true) :
    pb env stops (.tag n b l :: ts) st = .ok ([], some (.tag n b l), ts, st) := by
  unfold pb
  rw [List.length_cons, parseBody]
  simp only [h, if_true]

theorem pb_tag {env : TEnv} {stops n b l ts st t x ts' st'} (h : stops.contains n = false)
    (ht : textTags.get n = some t) (hp : parseTag env (pb env) t b ts st = .ok (x, ts', st'))
    (hl : ts'.length ≤ ts.length) :
    pb env stops (.tag n b l :: ts) st = (pb env stops ts' st').cons x := by
  unfold pb
  rw [List.length_cons, parseBody]
  have e : parseTag env (parseBody env (ts.length + 1)) t b ts st = parseTag env (pb env) t b ts st :=
    parseTag_congr fun _ _ => rfl
  simp only [h, ht, e, hp]
  rw [parseBody_enough env _ stops ts' st' (by omega)]
  rfl

/-- The stop tags of a place. -/
structure Stops (p : Place) (stops : List Str) : Prop where
  only : ∀ s, stops.contains s = true → s = endTagName ∨ s = elseTagName ∨ s = caseTagName
  noElse : p ≠ .beforeElse → stops.contains elseTagName = false ∧ stops.contains caseTagName = false

theorem stops_end (p : Place) : Stops p [endTagName] :=
  ⟨by intro s h; simp at h; exact .inl h, fun _ => by decide +kernel⟩

theorem stops_none (p : Place) : Stops p [] := ⟨by intro s h; simp at h, fun _ => by simp⟩

theorem stops_if : Stops .beforeElse [endTagName, elseTagName] :=
  ⟨by intro s h; simp at h; tauto, fun h => absurd rfl h⟩

theorem stops_case : Stops .beforeElse [caseTagName, elseTagName, endTagName] :=
  ⟨by intro s h; simp at h; tauto, fun h => absurd rfl h⟩

theorem Stops.other {p stops} (h : Stops p stops) {s : Str}
    (hs : s ≠ endTagName ∧ s ≠ elseTagName ∧ s ≠ caseTagName) : stops.contains s = false := by
  cases hc : stops.contains s with
  | false => rfl
  | true => have := h.only s hc; tauto

theorem pb_pyText {env : TEnv} {toks code} (h : PyText toks code) : ∀ {b l ts st},
    ∃ xs, pb env [endTagName] (toks ++ .tag endTagName b l :: ts) st = .ok (xs, some (.tag endTagName b l), ts, st) ∧
      pythonText xs = .ok code := by
  induction h with
  | nil => intro b l ts st; exact ⟨[], pb_stop (by decide +kernel), rfl⟩
  | cons hu _ ih =>
    intro b l ts st
    obtain ⟨xs, h1, h2⟩ := @ih b l ts st
    rw [List.cons_append, pb_text hu, h1]
    exact ⟨_, rfl, by simp [pythonText, h2, Except.map]⟩

theorem find_char {c : Char} {a b : Str} (h : c ∉ a) : find [c] (a ++ c :: b) = some a.length := by
  induction a with
  | nil => simp [find]
  | cons x a ih =>
    simp only [List.mem_cons, not_or] at h
    have : ([c] : Str).isPrefixOf (x :: (a ++ c :: b)) = false := by
      simp [List.isPrefixOf]; exact h.1
    rw [List.cons_append, find, this, ih h.2]
    rfl

theorem splitCall_parts {pre args callee : Str} (h1 : '(' ∉ pre) (h2 : ')' ∉ args) :
    splitCall (pre ++ '(' :: (args ++ ')' :: callee)) =
      .ok ("$caller(".toList ++ (args ++ ")".toList), strip callee) := by
  have h3 : ')' ∉ '(' :: args := by simpa using h2
  have e1 : findFrom [')'] (pre ++ '(' :: (args ++ ')' :: callee)) pre.length =
      some (args.length + 1 + pre.length) := by
    unfold findFrom
    rw [List.drop_left, show '(' :: (args ++ ')' :: callee) = ('(' :: args) ++ ')' :: callee from rfl, find_char h3]
    rfl
  unfold splitCall
  rw [find_char h1]
  simp only [e1]
  have e2 : pre ++ '(' :: (args ++ ')' :: callee) = (pre ++ '(' :: (args ++ [')'])) ++ callee := by simp
  have e3 : args.length + 1 + pre.length + 1 = (pre ++ '(' :: (args ++ [')'])).length := by simp; omega
  unfold slice
  rw [e3, e2, List.take_left, List.drop_left, List.drop_left]
  rfl

theorem parse_tree {env : TEnv} {p ds toks} (h : Written true p ds toks) : ∀ {stops : List Str} {rest : List TTok}
    {st : TState}, Stops p stops →
    (p = .cases → ∃ b l r, rest = .tag endTagName b l :: r) →
    view (pb env stops (toks ++ rest) st) =
      pre (nodes env.autoescape env.gen ds st).1
        (view (pb env stops rest (nodes env.autoescape env.gen ds st).2)) := by
  have step : ∀ {stops n b l ts st t x ts' st' r xs}, stops.contains n = false → textTags.get n = some t →
      parseTag env (pb env) t b ts st = .ok (x, ts', st') → ts'.length ≤ ts.length →
      view (pb env stops ts' st') = r → xs = x.toList →
      view (pb env stops (.tag n b l :: ts) st) = pre xs r := by
    intro stops n b l ts st t x ts' st' r xs h1 h2 h3 h4 h5 h6
    rw [pb_tag h1 h2 h3 h4]
    subst h6
    cases x with
    | none => rw [view_cons_none, h5]; exact (pre_nil _).symm
    | some x => rw [view_cons_some, h5]; rfl
  -- a body closed by a stop tag
  have closed : ∀ {body tb stops n b l ts st},
      view (pb env stops (tb ++ .tag n b l :: ts) st) =
        pre (nodes env.autoescape env.gen body st).1
          (view (pb env stops (.tag n b l :: ts) (nodes env.autoescape env.gen body st).2)) →
      stops.contains n = true →
      ∃ xs, pb env stops (tb ++ .tag n b l :: ts) st =
        .ok (xs, some (.tag n b l), ts, (nodes env.autoescape env.gen body st).2) ∧
        present xs = (nodes env.autoescape env.gen body st).1 := by
    intro body tb stops n b l ts st h hs
    rw [pb_stop hs] at h
    have h' : view (pb env stops (tb ++ .tag n b l :: ts) st) =
        .ok ((nodes env.autoescape env.gen body st).1, some (.tag n b l), ts,
          (nodes env.autoescape env.gen body st).2) := by
      rw [h]; simp [view, pre, present, Except.map]
    exact view_ok h'
  induction h with
  | nil => intro stops rest st _ _; rw [nodes, pre_nil]; rfl
  | text hu _ ih =>
    intro stops rest st hs hr
    rw [List.cons_append, pb_text hu, view_cons_some, ih hs hr, pre_pre, nodes]
    rfl
  | expr _ ih =>
    intro stops rest st hs hr
    rw [List.cons_append, pb_expr, view_cons_some, ih hs hr, pre_pre, nodes]
    rfl
  | @ifD p test body tb ds ts l b l' _ _ ihb ih =>
    intro stops rest st hs hr
    obtain ⟨xs, h1, h2⟩ := @closed body tb _ endTagName b l' (ts ++ rest) st
      (ihb stops_if (by intro h; cases h)) (by decide +kernel)
    rw [nodes, node, ← pre_pre, List.cons_append, List.append_assoc, List.cons_append]
    refine step (t := .ifT) (x := some (.ifN test (present xs) 0)) (hs.other (by decide +kernel)) (by decide +kernel)
      ?_ ?_ (ih hs hr) ?_
    · unfold parseTag
      exact (congrArg (finishIf test) h1).trans rfl
    · simp; omega
    · simp [h2]
  | @forD p decl body tb ds ts l b l' _ _ ihb ih =>
    intro stops rest st hs hr
    obtain ⟨xs, h1, h2⟩ := @closed body tb _ endTagName b l' (ts ++ rest) st
      (ihb (stops_end _) (by intro h; cases h)) (by decide +kernel)
    rw [nodes, node, ← pre_pre, List.cons_append, List.append_assoc, List.cons_append]
    refine step (t := .forT) (x := some (.forN decl (present xs) 0)) (hs.other (by decide +kernel)) (by decide +kernel)
      ?_ ?_ (ih hs hr) ?_
    · unfold parseTag
      exact (congrArg (bodyNode · _) h1).trans rfl
    · simp; omega
    · simp [h2]
  | @switchD p decl body tb ds ts l b l' _ _ ihb ih =>
    intro stops rest st hs hr
    obtain ⟨xs, h1, h2⟩ := @closed body tb _ endTagName b l' (ts ++ rest) st
      (ihb (stops_end _) (fun _ => ⟨_, _, _, rfl⟩)) (by decide +kernel)
    rw [nodes, node, ← pre_pre, List.cons_append, List.append_assoc, List.cons_append]
    refine step (t := .switch) (x := some (.switchN decl (present xs) 0)) (hs.other (by decide +kernel)) (by decide +kernel)
      ?_ ?_ (ih hs hr) ?_
    · unfold parseTag
      exact (congrArg (bodyNode · _) h1).trans rfl
    · simp; omega
    · simp [h2]
  | @ifElse p test body tb els te ds ts l b l' b' l'' hp _ _ _ ihb ihe ih =>
    intro stops rest st hs hr
    obtain ⟨xs, h1, h2⟩ := @closed body tb _ elseTagName b l' (te ++ .tag endTagName b' l'' :: (ts ++ rest)) st
      (ihb stops_if (by intro h; cases h)) (by decide +kernel)
    obtain ⟨ys, h3, h4⟩ := @closed els te _ endTagName b' l'' (ts ++ rest) (nodes env.autoescape env.gen body st).2
      (ihe (stops_end _) (by intro h; cases h)) (by decide +kernel)
    rw [nodes, node, ← pre_pre, List.cons_append, List.append_assoc, List.cons_append, List.append_assoc,
      List.cons_append]
    refine Eq.trans ?_ (pre_pre [_] [_] _)
    refine step (t := .ifT) (x := some (.ifN test (present xs) 0))
      (ts' := .tag elseTagName b l' :: (te ++ .tag endTagName b' l'' :: (ts ++ rest)))
      (st' := (nodes env.autoescape env.gen body st).2) (hs.other (by decide +kernel)) (by decide +kernel)
      ?_ ?_ ?_ ?_
    rotate_left 2
    · refine step (t := .elseT) (x := some (.elseN (present ys) 0)) (hs.noElse (hp rfl)).1 (by decide +kernel)
        ?_ ?_ (ih hs hr) ?_
      · unfold parseTag
        exact (congrArg (bodyNode · _) h3).trans rfl
      · simp; omega
      · simp [h4]
    · simp [h2]
    · unfold parseTag
      exact (congrArg (finishIf test) h1).trans rfl
    · simp
  | @caseD value body tb ds ts l _ _ hc ihb ih =>
    intro stops rest st hs hr
    have hc' : ∃ n b l' r, ts ++ rest = .tag n b l' :: r ∧ [caseTagName, elseTagName, endTagName].contains n = true := by
      rcases hc with rfl | hc
      · have : ts = [] := by rename_i hds; cases hds; rfl
        subst this
        obtain ⟨b, l, r, rfl⟩ := hr rfl
        exact ⟨endTagName, b, l, r, rfl, by decide +kernel⟩
      · cases ts with
        | nil => cases hc
        | cons t ts =>
          cases t with
          | tag n b l =>
            refine ⟨n, b, l, _, rfl, ?_⟩
            rcases hc with rfl | rfl | rfl <;> decide +kernel
          | _ => cases hc
    obtain ⟨n, b, l', r, he, hn⟩ := hc'
    obtain ⟨xs, h1, h2⟩ := @closed body tb _ n b l' r st
      (ihb stops_case (by intro h; cases h)) hn
    rw [nodes, node, ← pre_pre, List.cons_append, List.append_assoc]
    refine step (t := .case) (x := some (.caseN value (present xs) 0)) (ts' := ts ++ rest) (hs.noElse (by simp)).2
      (by decide +kernel) ?_ ?_ (ih hs hr) ?_
    · unfold parseTag
      rw [he]
      exact (congrArg (finishCase value) h1).trans rfl
    · simp
    · simp [h2]
  | @elseD body tb l b b' l' _ ihb =>
    intro stops rest st hs hr
    obtain ⟨xs, h1, h2⟩ := @closed body tb _ endTagName b' l' rest st
      (ihb (stops_end _) (by intro h; cases h)) (by decide +kernel)
    rw [nodes, node, ← pre_pre, List.cons_append, List.append_assoc, if_pos rfl, List.singleton_append]
    refine step (t := .elseT) (x := some (.elseN (present xs) 0)) (ts' := rest)
      (st' := (nodes env.autoescape env.gen body st).2) (hs.noElse (by simp)).1 (by decide +kernel)
      ?_ ?_ ?_ ?_
    rotate_left 2
    · rw [nodes, pre_nil]
    · simp [h2]
    · unfold parseTag
      exact (congrArg (bodyNode · _) h1).trans rfl
    · simp; omega
  | @defD p decl body tb ds ts l b l' _ _ ihb ih =>
    intro stops rest st hs hr
    obtain ⟨xs, h1, h2⟩ := @closed body tb _ endTagName b l' (ts ++ rest) { st with inDef := true }
      (ihb (stops_end _) (by intro h; cases h)) (by decide +kernel)
    rw [nodes, node, ← pre_pre, List.cons_append, List.append_assoc, List.cons_append]
    have hp : parseTag env (pb env) .defn decl (tb ++ .tag endTagName b l' :: (ts ++ rest)) st = _ :=
      congrArg (Except.map _) h1
    cases hd : st.inDef with
    | true =>
      simp only [if_true]
      rw [← h2]
      refine step (t := .defn) (x := some (.innerDef decl (present xs) 0)) (hs.other (by decide +kernel))
        (by decide +kernel) (hp.trans ?_) ?_ (ih hs hr) rfl
      · simp only [Except.map, hd]; rfl
      · simp; omega
    | false =>
      simp only [Bool.false_eq_true, if_false]
      rw [← h2]
      refine step (t := .defn) (x := none) (hs.other (by decide +kernel))
        (by decide +kernel) (hp.trans ?_) ?_ (ih hs hr) rfl
      · simp only [Except.map, hd]; rfl
      · simp; omega
  | @callD p pr args callee body tb ds ts l b l' hpr ha _ _ ihb ih =>
    intro stops rest st hs hr
    obtain ⟨xs, h1, h2⟩ := @closed body tb _ endTagName b l' (ts ++ rest) st
      (ihb (stops_end _) (by intro h; cases h)) (by decide +kernel)
    rw [nodes, node, ← pre_pre, List.cons_append, List.append_assoc, List.cons_append]
    refine step (t := .call) (x := some (.call (replace "$caller".toList (env.gen (nodes env.autoescape env.gen body st).2.fresh)
          ("$caller(".toList ++ (args ++ ")".toList)))
        (replace "$caller".toList (env.gen (nodes env.autoescape env.gen body st).2.fresh)
          (replace "%caller".toList "$caller".toList (strip callee))) (present xs) 0))
      (hs.other (by decide +kernel)) (by decide +kernel) ?_ ?_ (ih hs hr) ?_
    · unfold parseTag
      simp only [splitCall_parts hpr ha]
      exact (congrArg (Except.map _) h1).trans rfl
    · simp; omega
    · simp only [Option.toList, h2]
  | @blockD p name body tb ds ts l b l' hpy _ _ ihb ih =>
    intro stops rest st hs hr
    obtain ⟨xs, h1, h2⟩ := @closed body tb _ endTagName b l' (ts ++ rest) st
      (ihb (stops_end _) (by intro h; cases h)) (by decide +kernel)
    rw [nodes, node, ← pre_pre, List.cons_append, List.append_assoc, List.cons_append]
    have hpy' : pythonNode ("parent_block=parent.".toList ++ ("_kj_block_".toList ++ strip name)) =
        .ok (false, ["parent_block=parent._kj_block_".toList ++ strip name]) := by
      rw [← List.append_assoc]; exact hpy
    have hp : parseTag env (pb env) .block name (tb ++ .tag endTagName b l' :: (ts ++ rest)) st =
        (finishTextBlock name (present xs) (nodes env.autoescape env.gen body st).2).map
          fun r => (r.1, ts ++ rest, r.2) := by
      unfold parseTag
      simp only [h1]
    rw [h2] at hp
    unfold finishTextBlock at hp
    by_cases hd : (nodes env.autoescape env.gen body st).2.isChild = true
    ·
      dsimp only
      rw [if_pos hd]
      dsimp only at hp
      rw [if_pos hd, hpy'] at hp
      simp only [Except.map, List.append_assoc] at hp
      exact step (t := .block) (hs.other (by decide +kernel)) (by decide +kernel) hp (by simp; omega) (ih hs hr) rfl
    ·
      dsimp only
      rw [if_neg hd]
      dsimp only at hp
      rw [if_neg hd] at hp
      simp only [Except.map, List.append_assoc] at hp
      exact step (t := .block) (hs.other (by decide +kernel)) (by decide +kernel) hp (by simp; omega) (ih hs hr) rfl
  | @pyBlock p blank code tb ml lines ds ts l b l' hb hc hpy _ ih =>
    intro stops rest st hs hr
    obtain ⟨xs, h1, h2⟩ := @pb_pyText env _ _ hc b l' (ts ++ rest) st
    rw [nodes, node, ← pre_pre, List.cons_append, List.append_assoc, List.cons_append]
    have hp : parseTag env (pb env) .py blank (tb ++ .tag endTagName b l' :: (ts ++ rest)) st =
        (finishPy code st).map fun r => (r.1, ts ++ rest, r.2) := by
      unfold parseTag
      simp only [hb, List.isEmpty_nil, if_true, h1, h2]
    rw [finishPy, hpy] at hp
    cases ml with
    | true => exact step (t := .py) (hs.other (by decide +kernel)) (by decide +kernel) hp (by simp; omega) (ih hs hr) rfl
    | false => exact step (t := .py) (hs.other (by decide +kernel)) (by decide +kernel) hp (by simp; omega) (ih hs hr) rfl
  | @pyLine p code ml lines ds ts l hb hpy _ ih =>
    intro stops rest st hs hr
    rw [nodes, node, ← pre_pre, List.cons_append]
    have hp : parseTag env (pb env) .py code (ts ++ rest) st =
        (finishPy (strip code) st).map fun r => (r.1, ts ++ rest, r.2) := by
      unfold parseTag
      have : (strip code).isEmpty = false := by simpa using hb
      simp only [this, Bool.false_eq_true, if_false]
    rw [finishPy, hpy] at hp
    cases ml with
    | true => exact step (t := .py) (hs.other (by decide +kernel)) (by decide +kernel) hp (by simp) (ih hs hr) rfl
    | false => exact step (t := .py) (hs.other (by decide +kernel)) (by decide +kernel) hp (by simp) (ih hs hr) rfl
  | @extendsD p b w ds ts l hw _ ih =>
    intro stops rest st hs hr
    rw [nodes, node, ← pre_pre, List.cons_append]
    have hp : parseTag env (pb env) .extends b (ts ++ rest) st =
        .ok (some (.ext w 0), ts ++ rest, { st with isChild := true }) := by
      unfold parseTag oneWord; simp only [hw]; rfl
    exact step (t := .extends) (hs.other (by decide +kernel)) (by decide +kernel) hp (by simp) (ih hs hr) rfl
  | @importD p b w ds ts l hw _ ih =>
    intro stops rest st hs hr
    rw [nodes, node, ← pre_pre, List.cons_append]
    have hp : parseTag env (pb env) .imp b (ts ++ rest) st = .ok (some (.imp w none 0), ts ++ rest, st) := by
      unfold parseTag importWords; simp only [hw]; rfl
    exact step (t := .imp) (hs.other (by decide +kernel)) (by decide +kernel) hp (by simp) (ih hs hr) rfl
  | @importAs p b w a ds ts l hw _ ih =>
    intro stops rest st hs hr
    rw [nodes, node, ← pre_pre, List.cons_append]
    have hp : parseTag env (pb env) .imp b (ts ++ rest) st = .ok (some (.imp w (some a) 0), ts ++ rest, st) := by
      unfold parseTag importWords; simp only [hw]; rfl
    exact step (t := .imp) (hs.other (by decide +kernel)) (by decide +kernel) hp (by simp) (ih hs hr) rfl
  | @includeD p b w ds ts l hw _ ih =>
    intro stops rest st hs hr
    rw [nodes, node, ← pre_pre, List.cons_append]
    have hp : parseTag env (pb env) .incl b (ts ++ rest) st = .ok (some (.incl w 0), ts ++ rest, st) := by
      unfold parseTag oneWord; simp only [hw]; rfl
    exact step (t := .incl) (hs.other (by decide +kernel)) (by decide +kernel) hp (by simp) (ih hs hr) rfl

theorem parse_template {ds toks} (h : Written true .free ds toks) (autoescape : Bool) (gen : Nat → Str) :
    parseText autoescape gen (toks, none) = .ok (template autoescape gen ds) := by
  have h1 := @parse_tree ⟨autoescape, none, gen⟩ _ _ _ h [] [] TState.start (stops_none _) (by intro h; cases h)
  rw [List.append_nil] at h1
  have h2 : view (pb ⟨autoescape, none, gen⟩ [] toks .start) = .ok ((nodes autoescape gen ds .start).1, none, [],
      (nodes autoescape gen ds .start).2) := by
    rw [h1]
    simp [view, pre, pb, parseBody, present, Except.map]
  obtain ⟨xs, h3, h4⟩ := view_ok h2
  unfold parseText
  rw [pb] at h3
  simp only [h3, h4]
  rfl

end Kajiki.Texts
