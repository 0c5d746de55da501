import Verif.Model.I18n
import Verif.Spec.Gettext
import Verif.Model.Program
import Verif.Spec.Code
import Verif.Lemmas.XmlCompile
import Verif.Lemmas.CodeRead

/-!
# Messages of trees, token streams and code
-/

namespace Kajiki.Msgs
open Kajiki.Spec.Gettext
open Kajiki.Spec.XmlCompile Kajiki.Spec.Code

/-- The texts extracted from a stream. -/
def toks (xs : List FTok) : List Str := (xs.filterMap extractTok).map (·.2)

theorem toks_append (xs ys : List FTok) : toks (xs ++ ys) = toks xs ++ toks ys := by simp [toks]

@[simp] theorem toks_nil : toks [] = [] := rfl

theorem toks_cons (x : FTok) (xs : List FTok) :
    toks (x :: xs) = ((extractTok x).map (·.2)).toList ++ toks xs := by
  unfold toks
  cases h : extractTok x <;> simp [h]

theorem toks_optimizeAux (last : Option FTok) (xs : List FTok) :
    toks (optimizeAux last xs) = toks (last.toList ++ xs) := by
  induction xs generalizing last with
  | nil => simp [optimizeAux]
  | cons x xs ih =>
    unfold optimizeAux
    split
    · next h => cases h
    · next h => cases h; rw [ih]; rfl
    · next h =>
      cases h
      split
      · rw [ih]
        simp [toks_cons, extractTok]
      · rw [toks_cons, ih]
        simp [toks_cons]
    · next h _ _ heq =>
      cases heq
      rw [toks_cons, ih]
      simp [toks_cons]

theorem toks_optimize (xs : List FTok) : toks (optimize xs) = toks xs := toks_optimizeAux none xs

theorem toks_orPass (xs : List FTok) : toks (orPass xs) = toks xs := by
  cases xs <;> rfl

theorem toks_attrStream (n m : Str) (ln : Nat) (v : List FTok) (e : Bool) (h : e = true → toks v = []) :
    toks (attrStream n m ln v e) = toks v := by
  unfold attrStream
  cases e with
  | true => rw [h rfl]; rfl
  | false =>
    simp only [Bool.false_eq_true, if_false, toks_cons, toks_append, toks_optimize]
    simp [extractTok, attrTail]

mutual
theorem toks_flat (x : Ir) : toks (flat x) = messages x := by
  cases x with
  | text t g l => rfl
  | trans t l => simp only [flat, messages]; split <;> rfl
  | expr c s l => simp only [flat, messages]; cases s <;> rfl
  | attr n m g v l =>
    simp only [flat, messages]
    have h : v.isEmpty = true → toks (flatList v) = [] := by
      intro h; cases v
      · rfl
      · cases h
    split
    · rw [toks_cons, toks_cons, toks_append, toks_optimize, toks_attrStream _ _ _ _ _ h, toks_flatList]
      simp [toks_cons, extractTok]
    · rw [toks_attrStream _ _ _ _ _ h, toks_flatList]
  | attrs c m g l => simp only [flat, messages]; split <;> rfl
  | python ls l => cases ls <;> rfl
  | imp n a l => rfl
  | incl n l => rfl
  | ext n l => rfl
  | innerDef d b l =>
    simp only [flat, messages]
    rw [toks_cons, toks_cons, toks_append, toks_orPass, toks_optimize, toks_flatList]
    simp [toks_cons, extractTok]
  | pass l => rfl
  | withN vs b l =>
    simp only [flat, messages]
    rw [toks_cons, toks_append, toks_optimize, toks_flatList]
    simp [toks_cons, extractTok]
  | switchN e b l =>
    simp only [flat, messages]
    rw [toks_cons, toks_append, toks_optimize, toks_flatList]
    simp [toks_cons, extractTok]
  | _ =>
    simp only [flat, messages]
    rw [toks_cons, toks_cons, toks_append, toks_optimize, toks_flatList]
    simp [toks_cons, extractTok]

theorem toks_flatList (xs : List Ir) : toks (flatList xs) = messagesList xs := by
  cases xs with
  | nil => rfl
  | cons x xs => simp only [flatList, messagesList, toks_append, toks_flat, toks_flatList]
end

theorem toks_flatDef (d : Def) : toks (flatDef d) = messagesList d.body := by
  unfold flatDef bodyIter
  rw [toks_cons, toks_cons, toks_append, toks_orPass, toks_optimize, toks_flatList]
  simp [toks_cons, extractTok]

theorem toks_defs (ds : List Def) : toks (ds.flatMap flatDef) = ds.flatMap fun d => messagesList d.body := by
  induction ds with
  | nil => rfl
  | cons d ds ih => simp [toks_append, toks_flatDef, ih]

theorem extractTmpl_messages (t : Tmpl) : (extractTmpl t).map (·.2) = messagesTmpl t := by
  show toks (flatTmpl t) = _
  unfold flatTmpl messagesTmpl
  rw [toks_append, toks_cons, toks_cons, toks_append, toks_optimize, toks_defs]
  have : ∀ ps : List (List Str × Nat),
      toks (ps.map fun p => .other (if p.1.isEmpty then [] else [(0, .pyChunk p.1)]) p.2) = [] := by
    intro ps
    induction ps with
    | nil => rfl
    | cons p ps ih =>
      simp only [List.map_cons, toks_cons, ih]
      split <;> rfl
  rw [this]
  simp [toks_cons, extractTok]

/-! ## Code -/

theorem ofStmts_append (xs ys : List Stmt) : ofStmts (xs ++ ys) = ofStmts xs ++ ofStmts ys := by
  induction xs with
  | nil => rfl
  | cons x xs ih => simp [ofStmts, ih]

theorem ofStmts_assigns (vs : List (Str × Str)) :
    ofStmts (vs.map fun kv => .assign kv.1 kv.2) = [] := by
  induction vs with
  | nil => rfl
  | cons x xs ih => simp [ofStmts, ofStmt, ih]

theorem elsePart_nothing {xs : List Ir} (h : placed .nothing xs = true) : elsePart xs = [] := by
  induction xs with
  | nil => rfl
  | cons x xs ih =>
    simp only [placed, Bool.and_eq_true] at h
    cases x with
    | caseN e b l => simp [placedOne] at h
    | elseN b l => simp [placedOne] at h
    | python ls l =>
      cases ls with
      | nil => simp only [elsePart]; exact ih h.2
      | cons a as => rfl
    | _ => rfl

mutual
/-- `els` is used if something may follow the node. -/
theorem ofStmts_codeOne (k : Follow) (els : List Stmt) (x : Ir) (hp : placedOne k x = true)
    (hx : (∀ e b l, x ≠ .caseN e b l) ∧ (∀ b l, x ≠ .elseN b l) ∧ ∀ l, x ≠ .python [] l)
    (he : after k x = .nothing → els = []) :
    ofStmts (codeOne els x) = messages x ++ ofStmts els := by
  cases x with
  | text t g l =>
    simp only [codeOne, messages, after] at *
    cases hg : activeGuard g with
    | none => rw [he (by simp [hg])]; simp [ofStmts, ofStmt]
    | some g => simp [ofStmts, ofStmt]
  | trans t l =>
    rw [he rfl]
    simp only [codeOne, messages]
    split <;> simp [ofStmts, ofStmt]
  | expr c s l =>
    rw [he rfl]
    simp only [codeOne, messages]
    split <;> simp [ofStmts, ofStmt]
  | attr n m g v l =>
    have hv : ofStmts (if v.isEmpty then [.yieldLit []] else code v) = messagesList v := by
      cases v with
      | nil => rfl
      | cons y ys =>
        simp only [placedOne, List.isEmpty_cons, Bool.false_or, Bool.and_eq_true] at hp
        simp only [List.isEmpty_cons, Bool.false_eq_true, if_false]
        have := ofStmts_code .nothing (y :: ys) hp.2
        rwa [elsePart_nothing hp.2, ofStmts, List.nil_append] at this
    simp only [codeOne, messages]
    cases activeGuard g <;> simp only [ofStmts, ofStmt, hv, List.append_nil]
  | attrs c m g l => simp only [codeOne, messages]; cases activeGuard g <;> simp [ofStmts, ofStmt]
  | python ls l =>
    cases ls with
    | nil => exact absurd rfl (hx.2.2 l)
    | cons a as => rw [he rfl]; simp [codeOne, messages, ofStmts, ofStmt]
  | imp n a l => rw [he rfl]; simp [codeOne, messages, ofStmts, ofStmt]
  | incl n l => rw [he rfl]; simp [codeOne, messages, ofStmts, ofStmt]
  | ext n l => rw [he rfl]; simp [codeOne, messages, ofStmts, ofStmt]
  | pass l => rw [he rfl]; simp [codeOne, messages, ofStmts, ofStmt]
  | innerDef d b l =>
    have hv : ofStmts (if b.isEmpty then [.yieldLit []] else code b) = messagesList b := by
      cases b with
      | nil => rfl
      | cons y ys =>
        simp only [placedOne, List.isEmpty_cons, Bool.false_or, Bool.and_eq_true] at hp
        simp only [List.isEmpty_cons, Bool.false_eq_true, if_false]
        have := ofStmts_code .nothing (y :: ys) hp.2
        rwa [elsePart_nothing hp.2, ofStmts, List.nil_append] at this
    rw [he rfl]
    simp only [codeOne, messages, ofStmts, ofStmt, hv, List.append_nil]
  | call d c b l =>
    simp only [placedOne, Bool.and_eq_true] at hp
    have := ofStmts_code .nothing b hp.2
    rw [elsePart_nothing hp.2, ofStmts, List.nil_append] at this
    rw [he rfl]
    simp [codeOne, messages, ofStmts, ofStmt, this]
  | forN d b l =>
    simp only [placedOne, Bool.and_eq_true] at hp
    have := ofStmts_code .nothing b hp.2
    rw [elsePart_nothing hp.2, ofStmts, List.nil_append] at this
    simp [codeOne, messages, ofStmts, ofStmt, this]
  | withN vs b l =>
    simp only [placedOne] at hp
    have := ofStmts_code .nothing b hp
    rw [elsePart_nothing hp, ofStmts, List.nil_append] at this
    rw [he rfl]
    simp [codeOne, messages, ofStmts, ofStmt, this, ofStmts_append, ofStmts_assigns]
  | switchN e b l =>
    simp only [placedOne] at hp
    have := ofStmts_code .elifOrElse b hp
    rw [he rfl]
    simp [codeOne, messages, ofStmts, ofStmt, ofStmts_append]
    exact this
  | caseN e b l => exact absurd rfl (hx.1 e b l)
  | ifN e b l =>
    simp only [placedOne, Bool.and_eq_true] at hp
    have := ofStmts_code .nothing b hp.2
    rw [elsePart_nothing hp.2, ofStmts, List.nil_append] at this
    simp [codeOne, messages, ofStmts, ofStmt, this]
  | elseN b l => exact absurd rfl (hx.2.1 b l)

theorem ofStmts_code (k : Follow) (xs : List Ir) (hp : placed k xs = true) :
    ofStmts (elsePart xs) ++ ofStmts (code xs) = messagesList xs := by
  cases xs with
  | nil => rfl
  | cons x xs =>
    simp only [placed, Bool.and_eq_true] at hp
    have ih := ofStmts_code _ xs hp.2
    have hn : after k x = .nothing → elsePart xs = [] := fun h => elsePart_nothing (h ▸ hp.2)
    by_cases hx : (∀ e b l, x ≠ .caseN e b l) ∧ (∀ b l, x ≠ .elseN b l) ∧ ∀ l, x ≠ .python [] l
    · have h1 := ofStmts_codeOne k (elsePart xs) x hp.1 hx hn
      have h2 : elsePart (x :: xs) = [] := by
        cases x with
        | caseN e b l => exact absurd rfl (hx.1 e b l)
        | elseN b l => exact absurd rfl (hx.2.1 b l)
        | python ls l =>
          cases ls with
          | nil => exact absurd rfl (hx.2.2 l)
          | cons a as => rfl
        | _ => rfl
      rw [h2, code, ofStmts_append, h1, messagesList, ← ih]
      simp [ofStmts]
    · cases x with
      | caseN e b l =>
        simp only [placedOne, Bool.and_eq_true] at hp
        have hb := ofStmts_code .nothing b hp.1.2.2
        rw [elsePart_nothing hp.1.2.2, ofStmts, List.nil_append] at hb
        simp only [elsePart, code, codeOne, messagesList, messages, ofStmts, ofStmt, hb, List.nil_append,
          List.append_nil, ← ih, List.append_assoc]
      | elseN b l =>
        simp only [placedOne, Bool.and_eq_true] at hp
        have hb := ofStmts_code .nothing b hp.1.2.2
        rw [elsePart_nothing hp.1.2.2, ofStmts, List.nil_append] at hb
        have : elsePart xs = [] := hn rfl
        rw [this] at ih
        simp only [elsePart, code, codeOne, messagesList, messages, hb, List.nil_append, ← ih, ofStmts]
      | python ls l =>
        cases ls with
        | nil =>
          simp only [elsePart, code, codeOne, messagesList, messages, List.nil_append, ← ih,
            List.isEmpty_nil, if_true]
        | cons a as => exact absurd ⟨fun _ _ _ => by simp, fun _ _ => by simp, fun _ => by simp⟩ hx
      | _ => exact absurd ⟨fun _ _ _ => by simp, fun _ _ => by simp, fun _ => by simp⟩ hx
end

theorem messages_consMerge (x : Ir) (ys : List Ir) :
    messagesList (consMerge x ys) = messages x ++ messagesList ys := by
  unfold consMerge
  split
  · split <;> simp [messagesList, messages]
  · rfl

mutual
theorem messages_merged (x : Ir) : messages (merged x) = messages x := by
  cases x <;> simp only [merged, messages] <;> exact messages_mergedList _

theorem messages_mergedList (xs : List Ir) : messagesList (mergedList xs) = messagesList xs := by
  cases xs with
  | nil => rfl
  | cons x xs =>
    rw [mergedList, messages_consMerge, messages_merged, messages_mergedList xs, messagesList]
end

theorem ofModule_codeTmpl (t : Tmpl) (hp : placedTmpl t = true) : ofModule (codeTmpl t) = messagesTmpl t := by
  simp only [placedTmpl, Bool.and_eq_true] at hp
  have h := List.all_eq_true.1 hp.2
  unfold ofModule codeTmpl messagesTmpl
  simp only
  clear hp
  generalize t.defs = ds at h ⊢
  induction ds with
  | nil => rfl
  | cons d ds ih =>
    simp only [List.map_cons, List.flatMap_cons]
    rw [ih fun d hd => h d (List.mem_cons_of_mem _ hd)]
    congr 1
    have hd := h d List.mem_cons_self
    unfold bodyCode
    cases hb : d.body with
    | nil => rfl
    | cons y ys =>
      rw [hb] at hd
      simp only [List.isEmpty_cons, Bool.false_or, Bool.and_eq_true] at hd
      have := ofStmts_code .nothing (y :: ys) hd.2
      rw [elsePart_nothing hd.2, ofStmts, List.nil_append] at this
      simpa using this

end Kajiki.Msgs
