import Verif.Lemmas.Codegen

/-! Lemmas for C11: the statements read from the blocks of a tree. -/

namespace Kajiki
open Spec.Code

/-- Read blocks in front of what was already read. -/
def readOnto (A : List Block) (r : Pending × List Stmt) : Option (Pending × List Stmt) :=
  A.foldr (fun b r => r.bind (stmtOf b)) (some r)

theorem stmtsOf_eq (A : List Block) : stmtsOf A = readOnto A (.no, []) := by
  induction A with
  | nil => rw [stmtsOf]; rfl
  | cons a A ih => rw [stmtsOf, ih]; rfl

theorem readOnto_cons (b : Block) (A : List Block) (r : Pending × List Stmt) :
    readOnto (b :: A) r = (readOnto A r).bind (stmtOf b) := rfl

theorem readOnto_nil (r : Pending × List Stmt) : readOnto [] r = some r := rfl

theorem readOnto_append (A B : List Block) (r : Pending × List Stmt) :
    readOnto (A ++ B) r = (readOnto B r).bind (readOnto A) := by
  induction A with
  | nil => rw [List.nil_append]; cases readOnto B r <;> rfl
  | cons a A ih =>
    rw [List.cons_append, readOnto_cons, ih]
    cases h : readOnto B r with
    | none => rfl
    | some r' => simp [readOnto_cons]

/-- Append statements behind. -/
def behind (ss : List Stmt) (r : Pending × List Stmt) : Pending × List Stmt := (r.1, r.2 ++ ss)

theorem stmt_behind (p : PLine) (kids : List Block) (body : Option (List Stmt))
    (r : Pending × List Stmt) (ss : List Stmt) :
    stmt p kids body (behind ss r) = (stmt p kids body r).map (behind ss) := by
  obtain ⟨pd, rs⟩ := r
  have hs : ∀ s, simple s kids (behind ss (pd, rs)) = (simple s kids (pd, rs)).map (behind ss) := by
    intro s
    cases pd <;> simp only [simple, behind] <;> (try split) <;> simp [behind]
  have hl : ∀ mk, loop mk (behind ss (pd, rs)) = (loop mk (pd, rs)).map (behind ss) := by
    intro s
    cases pd <;> simp [loop, behind]
  have hc : ∀ c b, cond c b (behind ss (pd, rs)) = (cond c b (pd, rs)).map (behind ss) := by
    intro c b
    cases pd <;> simp [cond, behind]
  have he : ∀ c b, elifC c b (behind ss (pd, rs)) = (elifC c b (pd, rs)).map (behind ss) := by
    intro c b
    cases pd <;> simp [elifC, behind]
  have hee : ∀ b, elseC b (behind ss (pd, rs)) = (elseC b (pd, rs)).map (behind ss) := by
    intro b
    cases pd <;> simp [elseC, behind]
  cases p with
  | guardLit g s => simp only [stmt]; split <;> simp [hc]
  | ifFalse => simp only [stmt]; split <;> simp [hc]
  | defLine e d =>
    cases e
    · simp only [stmt]
      cases nonempty body <;> cases pd <;> simp [behind]
    · rfl
  | attrDef => simp only [stmt]; cases nonempty body <;> cases pd <;> simp [behind]
  | attrCollect => simp only [stmt]; cases pd <;> simp only [behind] <;> (try split) <;> simp [behind]
  | attrFor n m => simp only [stmt]; split <;> simp [hl]
  | attrsFor n m => simp only [stmt]; split <;> simp [hl]
  | forLine d => simp only [stmt]; cases nonempty body <;> simp [hl]
  | ifLine d => simp only [stmt]; cases nonempty body <;> simp [hc]
  | elifCase d => simp only [stmt]; cases nonempty body <;> simp [he]
  | elseLine => simp only [stmt]; cases nonempty body <;> simp [hee]
  | yieldVar => rfl
  | classLine => rfl
  | tail => rfl
  | _ => simp only [stmt, hs]

theorem readOnto_behind (A : List Block) (r : Pending × List Stmt) (ss : List Stmt) :
    readOnto A (behind ss r) = (readOnto A r).map (behind ss) := by
  induction A with
  | nil => rfl
  | cons a A ih =>
    rw [readOnto_cons, readOnto_cons, ih]
    cases readOnto A r with
    | none => rfl
    | some r' =>
      cases a with
      | node p kids => simp [stmtOf, stmt_behind]

theorem readOnto_no (A : List Block) (ss : List Stmt) :
    readOnto A (.no, ss) = (stmtsOf A).map (behind ss) := by
  rw [stmtsOf_eq, ← readOnto_behind]; rfl

/-! ## The claim proved by induction -/

/-- The statements waiting for the statement before. -/
def Pending.body : Pending → List Stmt
  | .els b => b
  | .elifs b => b
  | _ => []

/-- What is allowed accepts what is waiting. -/
def accepts : Follow → Pending → Bool
  | _, .no => true
  | .els, .els _ => true
  | .elifOrElse, .els _ => true
  | .elifOrElse, .elifs _ => true
  | _, _ => false

/-- A reading result agrees with the specification `(els, ss, ok)`. -/
def Agrees (res : Option (Pending × List Stmt)) (els ss : List Stmt) (ok : Follow → Bool) : Prop :=
  match res with
  | none => ∀ k, ok k = false
  | some (pd, rs) => pd ≠ .coll ∧ rs = ss ∧ pd.body = els ∧ ∀ k, ok k = accepts k pd

theorem Agrees.closed {res : Option (Pending × List Stmt)} {els ss : List Stmt} {ok : Follow → Bool}
    (h : Agrees res els ss ok) :
    closed res = if ok .nothing then some ss else none := by
  cases res with
  | none => simp [h .nothing, Kajiki.closed]
  | some r =>
    obtain ⟨pd, rs⟩ := r
    obtain ⟨_, rfl, _, h4⟩ := h
    rw [h4]
    cases pd <;> simp [Kajiki.closed, accepts]

/-- Blocks of nodes that write lines are not empty. -/
theorem blocks_isEmpty (x : Ir) : (blocks x).isEmpty = !writesLines x := by
  cases x with
  | trans t l => simp only [blocks]; split <;> simp [writesLines]
  | attr n m g v l => simp only [blocks]; split <;> simp [writesLines, attrBlocks]
  | attrs c m g l => simp only [blocks]; split <;> simp [writesLines]
  | python ls l => cases ls <;> simp [blocks, writesLines]
  | _ => simp [blocks, writesLines]

theorem blocksList_isEmpty (xs : List Ir) : (blocksList xs).isEmpty = !xs.any writesLines := by
  induction xs with
  | nil => simp [blocksList]
  | cons x xs ih =>
    have : ∀ A B : List Block, (A ++ B).isEmpty = (A.isEmpty && B.isEmpty) := by
      intro A B; cases A <;> simp
    rw [blocksList, this, ih, blocks_isEmpty]; simp

/-- The statements of an acceptable list of nodes: none iff no node writes a line. -/
theorem code_nil_of {xs : List Ir} (h : xs.any writesLines = false) : code xs = [] := by
  induction xs with
  | nil => rw [code]
  | cons x xs ih =>
    simp only [List.any_cons, Bool.or_eq_false_iff] at h
    rw [code, ih h.2]
    cases x with
    | python ls l => cases ls with
      | nil => simp [codeOne]
      | cons a b => simp [writesLines] at h
    | _ => simp [writesLines] at h

theorem code_ne_nil {xs : List Ir} (h : xs.any writesLines = true) (hp : placed .nothing xs = true) :
    code xs ≠ [] := by
  induction xs with
  | nil => simp at h
  | cons x xs ih =>
    rw [placed, Bool.and_eq_true] at hp
    rw [code]
    cases x with
    | python ls l =>
      cases ls with
      | nil =>
        simp only [List.any_cons, writesLines, Bool.false_or] at h
        simp only [codeOne, List.isEmpty_nil, if_true, List.nil_append]
        exact ih h hp.2
      | cons a b => simp [codeOne]
    | trans t l => simp only [codeOne]; split <;> simp
    | text t g l => simp only [codeOne]; split <;> simp
    | attr n m g v l => simp only [codeOne]; split <;> simp
    | attrs c m g l => simp only [codeOne]; split <;> simp
    | caseN e b l => simp [placedOne] at hp
    | elseN b l => simp [placedOne] at hp
    | _ => simp [codeOne]

/-- Reading a body that must not be empty. -/
theorem nonempty_body {b : List Ir} (h : Agrees (stmtsOf (blocksList b)) (elsePart b) (code b)
    fun k => placed k b) :
    nonempty (closed (stmtsOf (blocksList b)))
      = if b.any writesLines && placed .nothing b then some (code b) else none := by
  rw [h.closed]
  by_cases hp : placed .nothing b = true
  · by_cases hw : b.any writesLines = true
    · simp only [hp, hw, Bool.and_self, if_true]
      cases hc : code b with
      | nil => exact absurd hc (code_ne_nil hw hp)
      | cons => rfl
    · simp only [Bool.not_eq_true] at hw
      simp [hp, hw, code_nil_of hw, nonempty]
  · simp [hp, nonempty]

theorem stmtsOf_yieldLit : stmtsOf [Block.node (.yieldLit []) []]
    = some (.no, [.yieldLit []]) := by
  rw [stmtsOf, stmtsOf]; simp [stmtOf, stmt, simple]

theorem nonempty_orEmpty {b : List Ir} (h : Agrees (stmtsOf (blocksList b)) (elsePart b) (code b)
    fun k => placed k b) :
    nonempty (closed (stmtsOf (orEmptyText b.isEmpty (blocksList b))))
      = if b.isEmpty || (b.any writesLines && placed .nothing b) then
          some (if b.isEmpty then [.yieldLit []] else code b) else none := by
  cases b with
  | nil => simp [orEmptyText, stmtsOf_yieldLit, closed, nonempty]
  | cons x xs => simpa [orEmptyText] using nonempty_body h

theorem readOnto_one (p : PLine) (kids : List Block) (r : Pending × List Stmt) :
    readOnto [.node p kids] r = stmt p kids (closed (stmtsOf kids)) r := by
  rw [readOnto_cons, readOnto_nil]; simp [stmtOf]

/-- A node read in front of `res`, the reading of what follows it. -/
theorem agrees_none {els els' ss : List Stmt} {ok ok' : Follow → Bool} {x : Ir}
    {F : Pending × List Stmt → Option (Pending × List Stmt)}
    (hr : Agrees none els ss ok) {ss' : List Stmt}
    (hok : ∀ k, ok' k = (placedOne k x && ok (after k x))) :
    Agrees (Option.bind none F) els' ss' ok' := by
  intro k; rw [hok]; simp [hr _]

theorem agrees_simple {pd : Pending} {rs els ss : List Stmt} {ok : Follow → Bool}
    (hr : Agrees (some (pd, rs)) els ss ok) (s : Stmt) (ok' : Follow → Bool)
    (hok : ∀ k, ok' k = ok .nothing) :
    Agrees (simple s [] (pd, rs)) [] (s :: ss) ok' := by
  obtain ⟨h1, rfl, rfl, h4⟩ := hr
  cases pd with
  | no => exact ⟨nofun, rfl, rfl, fun k => by rw [hok, h4]; simp [accepts]⟩
  | coll => exact absurd rfl h1
  | els b => intro k; rw [hok, h4]; rfl
  | elifs b => intro k; rw [hok, h4]; rfl

theorem agrees_loop {pd : Pending} {rs els ss : List Stmt} {ok : Follow → Bool}
    (hr : Agrees (some (pd, rs)) els ss ok) (mk : List Stmt → Stmt) (ok' : Follow → Bool)
    (hok : ∀ k, ok' k = ok .els) :
    Agrees (loop mk (pd, rs)) [] (mk els :: ss) ok' := by
  obtain ⟨h1, rfl, rfl, h4⟩ := hr
  cases pd with
  | no => exact ⟨nofun, rfl, rfl, fun k => by rw [hok, h4]; simp [accepts]⟩
  | coll => exact absurd rfl h1
  | els b => exact ⟨nofun, rfl, rfl, fun k => by rw [hok, h4]; simp [accepts]⟩
  | elifs b => intro k; rw [hok, h4]; rfl

theorem agrees_cond {pd : Pending} {rs els ss : List Stmt} {ok : Follow → Bool}
    (hr : Agrees (some (pd, rs)) els ss ok) (c : Cond) (b : List Stmt) (ok' : Follow → Bool)
    (hok : ∀ k, ok' k = ok .elifOrElse) :
    Agrees (cond c b (pd, rs)) [] (.ifS c b els :: ss) ok' := by
  obtain ⟨h1, rfl, rfl, h4⟩ := hr
  cases pd with
  | coll => exact absurd rfl h1
  | _ => exact ⟨nofun, rfl, rfl, fun k => by rw [hok, h4]; simp [accepts]⟩

theorem agrees_false {els ss : List Stmt} {ok : Follow → Bool} (h : ∀ k, ok k = false) :
    Agrees none els ss ok := h

theorem read_attrBlocks (n m : Str) (v : List Block) (pd : Pending) (rs : List Stmt) :
    readOnto (attrBlocks n m v) (pd, rs)
      = (loop (.attrS n m) (pd, rs)).bind fun r =>
          (nonempty (closed (stmtsOf v))).map fun b => (.no, .collect b :: r.2) := by
  rw [attrBlocks, readOnto_cons, readOnto_cons, readOnto_cons, readOnto_nil]
  simp only [Option.bind_some, stmtOf, stmt]
  have hl : ∀ r, loop (.attrS n m) (pd, rs) = some r → r.1 = .no := by
    intro r; cases pd <;> simp [loop] <;> (intro h; rw [← h])
  cases h : loop (.attrS n m) (pd, rs) with
  | none => rfl
  | some r =>
    obtain ⟨pd', rs'⟩ := r
    have := hl _ h
    subst this
    simp only [Option.bind_some, List.isEmpty_nil, if_true]
    cases nonempty (closed (stmtsOf v)) <;> rfl

theorem stmtsOf_attrBlocks (n m : Str) (v : List Block) :
    nonempty (closed (stmtsOf (attrBlocks n m v)))
      = (nonempty (closed (stmtsOf v))).map fun b => [.collect b, .attrS n m []] := by
  rw [stmtsOf_eq, read_attrBlocks]
  simp only [loop, Option.bind_some]
  cases nonempty (closed (stmtsOf v)) <;> rfl

theorem readOnto_assigns (vs : List (Str × Str)) (ss : List Stmt) :
    readOnto (vs.map fun kv => Block.node (.assign kv.1 kv.2) []) (.no, ss)
      = some (.no, (vs.map fun kv => Stmt.assign kv.1 kv.2) ++ ss) := by
  induction vs with
  | nil => rfl
  | cons v vs ih => rw [List.map_cons, readOnto_cons, ih]; simp [stmtOf, stmt, simple]

mutual
theorem agrees_one (x : Ir) (pd : Pending) (rs els ss : List Stmt) (ok : Follow → Bool)
    (hr : Agrees (some (pd, rs)) els ss ok) (xs : List Ir) (hels : els = elsePart xs) :
    Agrees (readOnto (blocks x) (pd, rs)) (elsePart (x :: xs)) (codeOne els x ++ ss)
      (fun k => placedOne k x && ok (after k x)) := by
  cases x with
  | text t g l =>
    simp only [blocks, codeOne, elsePart, readOnto_one, stmtsOf, closed, textLine]
    cases h : activeGuard g with
    | some g' =>
      simp only [stmt, List.isEmpty_nil, if_true, List.singleton_append]
      exact agrees_cond hr _ _ _ fun k => by simp [placedOne, after, h]
    | none =>
      simp only [stmt, List.singleton_append]
      exact agrees_simple hr _ _ fun k => by simp [placedOne, after, h]
  | trans t l =>
    simp only [blocks, codeOne, elsePart]
    split <;> (rw [readOnto_one]; exact agrees_simple hr _ _ fun k => by simp [placedOne, after])
  | expr c s l =>
    simp only [blocks, codeOne, elsePart]
    cases s <;> (rw [readOnto_one]; exact agrees_simple hr _ _ fun k => by simp [placedOne, after])
  | attr n m g v l =>
    have hv := agrees_list v
    have hn := nonempty_orEmpty hv
    simp only [blocks, codeOne, elsePart]
    by_cases hb : (v.isEmpty || (v.any writesLines && placed .nothing v)) = true
    · rw [if_pos hb] at hn
      cases h : activeGuard g with
      | some g' =>
        simp only [readOnto_one, stmt, stmtsOf_attrBlocks, hn, Option.map_some, Option.bind_some]
        exact agrees_cond hr _ _ _ fun k => by simp [placedOne, after, h, hb]
      | none =>
        simp only [read_attrBlocks, hn, Option.map_some]
        have := agrees_loop hr (.attrS n m) (fun k => ok .els) (fun _ => rfl)
        revert this
        cases loop (.attrS n m) (pd, rs) with
        | none => intro h' k; simpa [placedOne, after, h, hb] using h' k
        | some r =>
          obtain ⟨pd', rs'⟩ := r
          intro ⟨_, h2, _, h4⟩
          refine ⟨nofun, by simp [h2], rfl, fun k => ?_⟩
          have := h4 .nothing
          have h5 := h4 .elifOrElse
          simp only [placedOne, after, h, hb, Option.isSome_none, Bool.true_and]
          cases pd' <;> simp_all [accepts]
    · rw [if_neg hb] at hn
      have hf : ∀ k, (placedOne k (.attr n m g v l) && ok (after k (.attr n m g v l))) = false := by
        intro k; simp only [placedOne]; simp only [Bool.not_eq_true] at hb; simp [hb]
      cases h : activeGuard g with
      | some g' =>
        simp only [readOnto_one, stmt, stmtsOf_attrBlocks, hn]
        exact hf
      | none =>
        simp only [read_attrBlocks, hn]
        cases loop (.attrS n m) (pd, rs) <;> exact hf
  | attrs c m g l =>
    simp only [blocks, codeOne, elsePart]
    cases h : activeGuard g with
    | some g' =>
      have : nonempty (closed (stmtsOf [.node (.attrsFor c m) [.node .yieldVar []]]))
          = some [.attrsS c m []] := by
        rw [stmtsOf, stmtsOf]; simp [stmtOf, stmt, loop, closed, nonempty]
      simp only [readOnto_one, stmt, this, Option.bind_some]
      exact agrees_cond hr _ _ _ fun k => by simp [placedOne, after, h]
    | none =>
      simp only [readOnto_one, stmt]
      exact agrees_loop hr _ _ fun k => by simp [placedOne, after, h]
  | python ls l =>
    cases ls with
    | nil =>
      simp only [blocks, codeOne, elsePart, readOnto_nil, ← hels]
      simpa [placedOne, after] using hr
    | cons a b =>
      simp only [blocks, codeOne, elsePart, readOnto_one]
      exact agrees_simple hr _ _ fun k => by simp [placedOne, after]
  | imp n a l =>
    simp only [blocks, codeOne, elsePart, readOnto_one]
    exact agrees_simple hr _ _ fun k => by simp [placedOne, after]
  | incl n l =>
    simp only [blocks, codeOne, elsePart, readOnto_one]
    exact agrees_simple hr _ _ fun k => by simp [placedOne, after]
  | ext n l =>
    simp only [blocks, codeOne, elsePart, readOnto_one]
    exact agrees_simple hr _ _ fun k => by simp [placedOne, after]
  | innerDef d b l =>
    have hn := nonempty_orEmpty (agrees_list b)
    simp only [blocks, codeOne, elsePart, readOnto_one, stmt, hn]
    by_cases hb : (b.isEmpty || (b.any writesLines && placed .nothing b)) = true
    · simp only [hb, if_true]
      have := agrees_simple hr (.fdef d (if b.isEmpty then [.yieldLit []] else code b))
        (fun k => placedOne k (.innerDef d b l) && ok (after k (.innerDef d b l)))
        (fun k => by simp only [placedOne, after, hb, Bool.true_and])
      cases pd <;> exact this
    · simp only [hb]
      intro k; simp only [placedOne]; simp only [Bool.not_eq_true] at hb; simp [hb]
  | call d c b l =>
    have hn := nonempty_body (agrees_list b)
    simp only [blocks, codeOne, elsePart, readOnto_cons, readOnto_nil, Option.bind_some, stmtOf, stmt,
      hn]
    by_cases hb : (b.any writesLines && placed .nothing b) = true
    · simp only [hb, if_true]
      have := agrees_simple hr (.yieldCode c)
        (fun k => placedOne k (.call d c b l) && ok (after k (.call d c b l)))
        (fun k => by simp only [placedOne, after, hb, Bool.true_and])
      revert this
      obtain ⟨h1, rfl, rfl, h4⟩ := hr
      cases pd with
      | no =>
        intro ⟨_, _, _, h5⟩
        exact ⟨nofun, rfl, rfl, h5⟩
      | _ => exact fun h => h
    · have hf : ∀ k, (placedOne k (.call d c b l) && ok (after k (.call d c b l))) = false := by
        intro k; simp only [placedOne]; simp only [Bool.not_eq_true] at hb; simp [hb]
      simp only [hb]
      cases simple (.yieldCode c) [] (pd, rs) <;> exact hf
  | forN d b l =>
    have hn := nonempty_body (agrees_list b)
    simp only [blocks, codeOne, elsePart, readOnto_one, stmt, hn]
    by_cases hb : (b.any writesLines && placed .nothing b) = true
    · simp only [hb, if_true, Option.bind_some]
      exact agrees_loop hr _ _ fun k => by simp only [placedOne, after, hb, Bool.true_and]
    · simp only [hb]
      intro k; simp only [placedOne]; simp only [Bool.not_eq_true] at hb; simp [hb]
  | ifN d b l =>
    have hn := nonempty_body (agrees_list b)
    simp only [blocks, codeOne, elsePart, readOnto_one, stmt, hn]
    by_cases hb : (b.any writesLines && placed .nothing b) = true
    · simp only [hb, if_true, Option.bind_some]
      exact agrees_cond hr _ _ _ fun k => by simp only [placedOne, after, hb, Bool.true_and]
    · simp only [hb]
      intro k; simp only [placedOne]; simp only [Bool.not_eq_true] at hb; simp [hb]
  | caseN e b l =>
    have hn := nonempty_body (agrees_list b)
    simp only [blocks, codeOne, elsePart, readOnto_one, stmt, hn]
    obtain ⟨h1, rfl, rfl, h4⟩ := hr
    by_cases hb : (b.any writesLines && placed .nothing b) = true
    · simp only [hb, if_true, Option.bind_some]
      have hk : ∀ k, (placedOne k (.caseN e b l) && ok (after k (.caseN e b l)))
          = (decide (k = .elifOrElse) && ok .elifOrElse) := by
        intro k; simp only [placedOne, after]; rw [hb, Bool.and_true]
      cases pd with
      | coll => exact absurd rfl h1
      | _ =>
        refine ⟨nofun, rfl, by rw [← hels]; rfl, fun k => ?_⟩
        refine (hk k).trans ?_
        rw [h4]
        cases k <;> simp [accepts]
    · simp only [hb]
      intro k; simp only [placedOne]; simp only [Bool.not_eq_true] at hb; rw [hb]; simp
  | elseN b l =>
    have hn := nonempty_body (agrees_list b)
    simp only [blocks, codeOne, elsePart, readOnto_one, stmt, hn]
    obtain ⟨h1, rfl, rfl, h4⟩ := hr
    by_cases hb : (b.any writesLines && placed .nothing b) = true
    · simp only [hb, if_true, Option.bind_some]
      have hk : ∀ k, (placedOne k (.elseN b l) && ok (after k (.elseN b l)))
          = (decide (k ≠ .nothing) && ok .nothing) := by
        intro k; simp only [placedOne, after]; rw [hb, Bool.and_true]
      cases pd with
      | coll => exact absurd rfl h1
      | no =>
        refine ⟨nofun, rfl, rfl, fun k => ?_⟩
        refine (hk k).trans ?_
        rw [h4]
        cases k <;> simp [accepts]
      | _ =>
        intro k
        refine (hk k).trans ?_
        rw [h4]
        cases k <;> simp [accepts]
    · simp only [hb]
      intro k; simp only [placedOne]; simp only [Bool.not_eq_true] at hb; rw [hb]; simp
  | withN vs b l =>
    have hb := agrees_list b
    have hs := agrees_simple hr (.popWith (vs.map (·.1))) (fun _ => ok .nothing) (fun _ => rfl)
    simp only [blocks, codeOne, elsePart]
    rw [List.cons_append, readOnto_cons, readOnto_append, readOnto_append, readOnto_one]
    simp only [stmt]
    revert hs
    obtain ⟨h1, rfl, rfl, h4⟩ := hr
    have hf : ok .nothing = false → ∀ k, (placedOne k (.withN vs b l) && ok (after k (.withN vs b l))) = false := by
      intro h k; simp [placedOne, after, h]
    cases pd with
    | coll => exact absurd rfl h1
    | els _ => intro h; exact hf (h .nothing)
    | elifs _ => intro h; exact hf (h .nothing)
    | no =>
      intro ⟨_, _, _, h5⟩
      have hok : ok .nothing = true := (h5 .nothing).trans rfl
      simp only [simple, List.isEmpty_nil, if_true, Option.bind_some]
      rw [readOnto_no]
      revert hb
      cases stmtsOf (blocksList b) with
      | none => intro hb k; simp [placedOne, hb .nothing]
      | some r =>
        obtain ⟨pb, bs⟩ := r
        intro ⟨g1, g2, g3, g4⟩
        simp only [Option.map_some, Option.bind_some, behind]
        have hfin : ∀ k, (placedOne k (.withN vs b l) && ok (after k (.withN vs b l)))
            = accepts .nothing pb := by
          intro k; simp [placedOne, after, hok, g4]
        cases pb with
        | coll => exact absurd rfl g1
        | no =>
          subst g2
          rw [readOnto_assigns]
          simp only [Option.bind_some, stmtOf, stmt, simple, List.isEmpty_nil, if_true]
          refine ⟨nofun, by simp, rfl, fun k => ?_⟩
          refine (hfin k).trans ?_; simp [accepts]
        | els z =>
          cases vs with
          | nil =>
            intro k; exact (hfin k).trans rfl
          | cons v vs =>
            have : readOnto ((v :: vs).map fun kv => Block.node (.assign kv.1 kv.2) [])
                (.els z, bs ++ .popWith ((v :: vs).map (·.1)) :: rs) = none := by
              generalize bs ++ _ = q
              have : ∀ vs : List (Str × Str), vs ≠ [] → readOnto (vs.map fun kv => Block.node (.assign kv.1 kv.2) [])
                (.els z, q) = none := by
                intro vs
                induction vs with
                | nil => exact fun h => absurd rfl h
                | cons w ws ih =>
                  intro _
                  rw [List.map_cons, readOnto_cons]
                  cases ws with
                  | nil => rfl
                  | cons => rw [ih (by simp)]; rfl
              exact this _ (by simp)
            rw [this]
            intro k; exact (hfin k).trans rfl
        | elifs z =>
          cases vs with
          | nil =>
            intro k; exact (hfin k).trans rfl
          | cons v vs =>
            have : readOnto ((v :: vs).map fun kv => Block.node (.assign kv.1 kv.2) [])
                (.elifs z, bs ++ .popWith ((v :: vs).map (·.1)) :: rs) = none := by
              generalize bs ++ _ = q
              have : ∀ vs : List (Str × Str), vs ≠ [] → readOnto (vs.map fun kv => Block.node (.assign kv.1 kv.2) [])
                (.elifs z, q) = none := by
                intro vs
                induction vs with
                | nil => exact fun h => absurd rfl h
                | cons w ws ih =>
                  intro _
                  rw [List.map_cons, readOnto_cons]
                  cases ws with
                  | nil => rfl
                  | cons => rw [ih (by simp)]; rfl
              exact this _ (by simp)
            rw [this]
            intro k; exact (hfin k).trans rfl
  | switchN e b l =>
    have hb := agrees_list b
    have hs := agrees_simple hr .popSwitch (fun _ => ok .nothing) (fun _ => rfl)
    simp only [blocks, codeOne, elsePart]
    rw [readOnto_cons, readOnto_cons, readOnto_append, readOnto_one]
    simp only [stmt]
    revert hs
    obtain ⟨h1, rfl, rfl, h4⟩ := hr
    have hf : ok .nothing = false → ∀ k, (placedOne k (.switchN e b l) && ok (after k (.switchN e b l))) = false := by
      intro h k; simp [placedOne, after, h]
    cases pd with
    | coll => exact absurd rfl h1
    | els _ => intro h; exact hf (h .nothing)
    | elifs _ => intro h; exact hf (h .nothing)
    | no =>
      intro ⟨_, _, _, h5⟩
      have hok : ok .nothing = true := (h5 .nothing).trans rfl
      simp only [simple, List.isEmpty_nil, if_true, Option.bind_some]
      rw [readOnto_no]
      revert hb
      cases stmtsOf (blocksList b) with
      | none => intro hb k; simp [placedOne, hb .elifOrElse]
      | some r =>
        obtain ⟨pb, bs⟩ := r
        intro ⟨g1, g2, g3, g4⟩
        simp only [Option.map_some, Option.bind_some, behind]
        have hfin : ∀ k, (placedOne k (.switchN e b l) && ok (after k (.switchN e b l)))
            = accepts .elifOrElse pb := by
          intro k; simp [placedOne, after, hok, g4]
        subst g2
        cases pb with
        | coll => exact absurd rfl g1
        | _ =>
          simp only [Option.bind_some, stmtOf, stmt, simple, List.isEmpty_nil, if_true, cond]
          refine ⟨nofun, by simp [← g3, Pending.body], rfl, fun k => ?_⟩
          refine (hfin k).trans ?_; simp [accepts]
  | pass l =>
    simp only [blocks, codeOne, elsePart, readOnto_one]
    exact agrees_simple hr _ _ fun k => by simp [placedOne, after]

theorem agrees_list (xs : List Ir) :
    Agrees (stmtsOf (blocksList xs)) (elsePart xs) (code xs) (fun k => placed k xs) := by
  cases xs with
  | nil =>
    rw [blocksList, stmtsOf]
    exact ⟨nofun, by rw [code], by simp [elsePart, Pending.body], fun k => by simp [placed, accepts]⟩
  | cons x xs =>
    have h := agrees_list xs
    have h1 := agrees_one x
    rw [stmtsOf_eq, blocksList, readOnto_append, ← stmtsOf_eq]
    revert h
    cases stmtsOf (blocksList xs) with
    | none => intro h k; have h := h (after k x); simp only at h; simp [placed, h]
    | some r =>
      obtain ⟨pd, rs⟩ := r
      intro h
      have := h1 pd rs _ _ _ h xs rfl
      simpa [placed, code] using this
end

/-! ## Merging does not change acceptability -/

theorem writesLines_merged (x : Ir) : writesLines (merged x) = writesLines x := by
  cases x <;> simp [merged, writesLines]

theorem after_merged (k : Follow) (x : Ir) : after k (merged x) = after k x := by
  cases x <;> simp [merged, after]

theorem any_consMerge (x : Ir) (ys : List Ir) :
    (consMerge x ys).any writesLines = (writesLines x || ys.any writesLines) := by
  unfold consMerge
  split
  · split <;> simp [writesLines]
  · simp

theorem any_mergedList (xs : List Ir) : (mergedList xs).any writesLines = xs.any writesLines := by
  induction xs with
  | nil => rfl
  | cons x xs ih => rw [mergedList, any_consMerge, ih, writesLines_merged]; simp

theorem placed_consMerge (k : Follow) (x : Ir) (ys : List Ir) :
    placed k (consMerge x ys) = placed k (x :: ys) := by
  unfold consMerge
  split
  · split
    · next a g l b g' l' xs h =>
      subst h
      simp [placed, placedOne, after]
    · rfl
  · rfl

mutual
theorem placedOne_merged (x : Ir) (k : Follow) : placedOne k (merged x) = placedOne k x := by
  cases x <;> simp only [merged, placedOne]
  case attr n m g v l => rw [mergedList_isEmpty, any_mergedList, placed_mergedList v]
  case innerDef d b l => rw [mergedList_isEmpty, any_mergedList, placed_mergedList b]
  case call d c b l => rw [any_mergedList, placed_mergedList b]
  case forN d b l => rw [any_mergedList, placed_mergedList b]
  case withN d b l => rw [placed_mergedList b]
  case switchN d b l => rw [placed_mergedList b]
  case caseN d b l => rw [any_mergedList, placed_mergedList b]
  case ifN d b l => rw [any_mergedList, placed_mergedList b]
  case elseN b l => rw [any_mergedList, placed_mergedList b]

theorem placed_mergedList (xs : List Ir) (k : Follow) : placed k (mergedList xs) = placed k xs := by
  cases xs with
  | nil => rfl
  | cons x xs =>
    rw [mergedList, placed_consMerge, placed, placed, placedOne_merged x, after_merged,
      placed_mergedList xs]
end

/-! ## Templates -/

/-- The block of a function. -/
def defBlock (d : Def) : Block :=
  .node (.defLine true d.decl) (orEmptyText d.body.isEmpty (blocksList (mergedList d.body)))

theorem writes_def (d : Def) : Writes (flatDef d) [defBlock d] := by
  have := Writes.hier (.defLine true d.decl) d.ln (writes_orPass d.body (writes_list d.body))
  simpa [flatDef, bodyIter, defBlock] using this

theorem flatDef_solid (d : Def) : Solid (flatDef d) := by
  unfold flatDef bodyIter
  refine Solid.cons rfl (Solid.cons rfl ?_)
  rw [optimize_eq]; exact orPass_solid _

theorem writes_defs (ds : List Def) :
    Writes (optimize (ds.flatMap flatDef)) (ds.map defBlock) := by
  rw [optimize_eq]
  have hs : Solid (ds.flatMap flatDef) := by
    induction ds with
    | nil => exact Solid.nil
    | cons d ds ih => rw [List.flatMap_cons]; exact (flatDef_solid d).append ih
  have : optR (ds.flatMap flatDef) = ds.flatMap flatDef := by simpa [optR] using hs []
  rw [this]
  clear hs this
  induction ds with
  | nil => exact Writes.nil
  | cons d ds ih => rw [List.flatMap_cons]; exact (writes_def d).append ih

/-- The blocks of module level Python. -/
def modBlocks (l : List (List Str × Nat)) : List Block :=
  ((l.map (·.1)).filter (!·.isEmpty)).map fun ls => .node (.pyChunk ls) []

theorem writes_mod (l : List (List Str × Nat)) :
    Writes (l.map fun p => .other (if p.1.isEmpty then [] else [(0, .pyChunk p.1)]) p.2)
      (modBlocks l) := by
  induction l with
  | nil => exact Writes.nil
  | cons p l ih =>
    obtain ⟨ls, ln⟩ := p
    cases ls with
    | nil =>
      intro d R
      simp only [List.map_cons, List.isEmpty_nil, if_true, List.cons_append, gen_other, List.map_nil,
        List.nil_append]
      rw [ih]; simp [modBlocks]
    | cons a b =>
      have := (Writes.one (.pyChunk (a :: b)) ln).append ih
      simpa [modBlocks] using this

/-- The blocks of the generated module. -/
def tmplBlocks (t : Tmpl) : List Block :=
  modBlocks t.modPy ++ [.node .classLine (t.defs.map defBlock), .node .tail []]

theorem writes_tmpl (t : Tmpl) : Writes (flatTmpl t) (tmplBlocks t) := by
  have := (writes_mod t.modPy).append
    ((Writes.hier .classLine 0 (writes_defs t.defs)).append (Writes.one .tail 0))
  simpa [flatTmpl, tmplBlocks] using this

theorem readDefs_eq (ds : List Def) :
    readDefs (ds.map defBlock)
      = if ds.all fun d => d.body.isEmpty || (d.body.any writesLines && placed .nothing d.body)
        then some (ds.map fun d => (d.decl, bodyCode (mergedList d.body))) else none := by
  induction ds with
  | nil => simp [readDefs]
  | cons d ds ih =>
    have hn := nonempty_orEmpty (agrees_list (mergedList d.body))
    rw [mergedList_isEmpty, any_mergedList, placed_mergedList] at hn
    rw [List.map_cons, defBlock, readDefs, ih, hn]
    rw [List.all_cons]
    cases (d.body.isEmpty || (d.body.any writesLines && placed .nothing d.body)) with
    | false => simp
    | true =>
      cases (ds.all fun d => d.body.isEmpty || (d.body.any writesLines && placed .nothing d.body)) with
      | false => simp
      | true => simp [bodyCode, mergedList_isEmpty]

theorem readModule_eq (t : Tmpl) :
    readModule (tmplBlocks t) = if placedTmpl t then some (codeTmpl (mergedTmpl t)) else none := by
  have hmod : ∀ (ms : List (List Str)) (bs : List Block),
      readModule (ms.map (fun ls => Block.node (.pyChunk ls) []) ++ bs)
        = (readModule bs).map fun m => { m with modPy := ms ++ m.modPy } := by
    intro ms bs
    induction ms with
    | nil => rw [List.map_nil, List.nil_append]; cases readModule bs <;> simp
    | cons a ms ih =>
      rw [List.map_cons, List.cons_append, readModule, ih]
      cases readModule bs <;> simp
  rw [tmplBlocks, modBlocks, hmod]
  cases hd : t.defs with
  | nil => simp [readModule, placedTmpl, hd]
  | cons d ds =>
    rw [List.map_cons, readModule, ← List.map_cons, readDefs_eq]
    have : placedTmpl t = (d :: ds).all fun d => d.body.isEmpty || (d.body.any writesLines && placed .nothing d.body) := by
      rw [placedTmpl, hd]; rfl
    rw [this]
    split
    · simp [codeTmpl, mergedTmpl, hd]
    · rfl

theorem compilePy_generatePython (t : Tmpl) :
    compilePy (generatePython t) = if placedTmpl t then some (codeTmpl (mergedTmpl t)) else none := by
  have h := writes_tmpl t 0 []
  rw [List.append_nil, gen_nil, List.append_nil, gen] at h
  rw [compilePy, generatePython, h, read_layout, Option.bind_some, readModule_eq]

end Kajiki
