import Verif.Spec.DocSem
import Verif.Lemmas.XmlChild
import Verif.Lemmas.XmlSame
import Verif.Lemmas.Attrs

/-!
# Compiled documents, as a relation

`NodeC` describes the result of compiling a node without the compiler's state and without line numbers.
-/

namespace Kajiki.DocComp
open Kajiki.Spec.DocSem Kajiki.XmlComp

/-! ## Texts -/

/-- The node for a part of a text. -/
def PieceNode (m : TextMode) : Str ⊕ Str → Ir → Prop
  | .inl t, x => ∃ l, x = textNode m t l
  | .inr e, x => ∃ l, x = .expr e m.safe l

/-- The part a plain node stands for. -/
def pieceOf : Ir → Option (Str ⊕ Str)
  | .text t _ _ => some (.inl t)
  | .expr e _ _ => some (.inr e)
  | _ => none

theorem cut_eq (py : PyCompile) (src : Str) :
    cut py src = match compileTextSrc py ⟨false, false⟩ src 0 with
      | .ok xs => xs.filterMap pieceOf
      | .error _ => [] := by
  unfold cut
  cases compileTextSrc py ⟨false, false⟩ src 0 with
  | error e => rfl
  | ok xs =>
    simp only
    congr 1

theorem pieces_text (m : TextMode) (t : Str) (l l' : Nat) :
    List.Forall₂ (PieceNode m) ([textNode ⟨false, false⟩ t l].filterMap pieceOf) [textNode m t l'] := by
  simp only [textNode, Bool.false_and, Bool.false_eq_true, if_false, List.filterMap_cons, pieceOf, List.filterMap_nil]
  exact .cons ⟨l', rfl⟩ .nil

theorem pieces_expr (m : TextMode) (t : Str) (l l' : Nat) :
    List.Forall₂ (PieceNode m) ([exprNode ⟨false, false⟩ t l].filterMap pieceOf) [exprNode m t l'] := by
  simp only [exprNode, List.filterMap_cons, pieceOf, List.filterMap_nil]
  exact .cons ⟨l', rfl⟩ .nil

theorem pieces_before (m : TextMode) (src : Str) (pos start l l' : Nat) :
    List.Forall₂ (PieceNode m) ((textBefore ⟨false, false⟩ src pos start l).1.filterMap pieceOf)
      (textBefore m src pos start l').1 := by
  unfold textBefore
  split
  · exact pieces_text m _ _ _
  · exact .nil

theorem pieces_append {m : TextMode} {a b : List Ir} {a' b' : List Ir}
    (h : List.Forall₂ (PieceNode m) (a.filterMap pieceOf) a')
    (h2 : List.Forall₂ (PieceNode m) (b.filterMap pieceOf) b') :
    List.Forall₂ (PieceNode m) ((a ++ b).filterMap pieceOf) (a' ++ b') := by
  rw [List.filterMap_append]
  exact List.rel_append h h2

theorem textLoop_pieces (py : PyCompile) (m : TextMode) (src : Str) (ms : List (Nat × Nat × DKind)) :
    ∀ pos l l' xs, textLoop py m src pos l ms = .ok xs →
      ∃ ys, textLoop py ⟨false, false⟩ src pos l' ms = .ok ys ∧
        List.Forall₂ (PieceNode m) (ys.filterMap pieceOf) xs := by
  induction ms with
  | nil =>
    intro pos l l' xs h
    simp only [textLoop] at h ⊢
    cases h
    refine ⟨_, rfl, ?_⟩
    split
    · exact pieces_text m _ _ _
    · exact .nil
  | cons k ms ih =>
    intro pos l l' xs h
    obtain ⟨a, b, k⟩ := k
    simp only [textLoop] at h ⊢
    have hb : (textBefore m src pos a l).2 = (textBefore ⟨false, false⟩ src pos a l').2 := by
      unfold textBefore; split <;> rfl
    cases k with
    | braced =>
      simp only at h ⊢
      split at h
      · cases h
      · next t p hp =>
        obtain ⟨zs, hz, rfl⟩ := prepend_ok.1 h
        obtain ⟨ys, hy, hyz⟩ := ih _ _ (l' + (textBefore ⟨false, false⟩ src pos a l').2 + countNL t) _ hz
        exact ⟨_, prepend_ok.2 ⟨ys, hy, rfl⟩,
          pieces_append (pieces_append (pieces_before m _ _ _ _ _) (pieces_expr m _ _ _)) hyz⟩
    | named t =>
      simp only at h ⊢
      obtain ⟨zs, hz, rfl⟩ := prepend_ok.1 h
      obtain ⟨ys, hy, hyz⟩ := ih _ _ (l' + (textBefore ⟨false, false⟩ src pos a l').2 + countNL t) _ hz
      exact ⟨_, prepend_ok.2 ⟨ys, hy, rfl⟩,
        pieces_append (pieces_append (pieces_before m _ _ _ _ _) (pieces_expr m _ _ _)) hyz⟩
    | dollar =>
      simp only at h ⊢
      obtain ⟨zs, hz, rfl⟩ := prepend_ok.1 h
      obtain ⟨ys, hy, hyz⟩ := ih _ _ (l' + (textBefore ⟨false, false⟩ src pos a l').2) _ hz
      exact ⟨_, prepend_ok.2 ⟨ys, hy, rfl⟩,
        pieces_append (pieces_append (pieces_before m _ _ _ _ _) (pieces_text m _ _ _)) hyz⟩

theorem text_pieces {py : PyCompile} {m : TextMode} {src : Str} {l : Nat} {xs : List Ir}
    (h : compileTextSrc py m src l = .ok xs) : List.Forall₂ (PieceNode m) (cut py src) xs := by
  obtain ⟨ys, hy, hyx⟩ := textLoop_pieces py m src _ _ _ 0 _ h
  rw [cut_eq]
  unfold compileTextSrc
  rw [hy]
  exact hyx

theorem PieceNode.anno {m : TextMode} {a : Str ⊕ Str} {x : Ir} (h : PieceNode m a x) (l : Nat) :
    PieceNode m a (anno l x) := by
  cases a with
  | inl t =>
    obtain ⟨k, rfl⟩ := h
    refine ⟨if k = 0 then l else k, ?_⟩
    unfold textNode Kajiki.anno
    split <;> by_cases hk : k = 0 <;> simp [Ir.ln, Ir.setLn, hk]
  | inr e =>
    obtain ⟨k, rfl⟩ := h
    refine ⟨if k = 0 then l else k, ?_⟩
    unfold Kajiki.anno
    by_cases hk : k = 0 <;> simp [Ir.ln, Ir.setLn, hk]

theorem pieces_anno {m : TextMode} {as : List (Str ⊕ Str)} {xs : List Ir}
    (h : List.Forall₂ (PieceNode m) as xs) (l : Nat) : List.Forall₂ (PieceNode m) as (xs.map (anno l)) := by
  induction h with
  | nil => exact .nil
  | cons h _ ih => exact .cons (h.anno l) ih

/-- The node for a part of a script. -/
def ScriptNode (esc : Bool) : Str ⊕ Str → Ir → Prop
  | .inl t, x => ∃ l, x = .text (if esc then resolve t else t) none l
  | .inr e, x => ∃ l, x = .expr (if esc then resolve e else e) false l

/-- The content of a script. -/
inductive ScriptC (py : PyCompile) : List DNode → List Ir → Prop
  | nil : ScriptC py [] []
  | cdata {d : Str} {l : Nat} {ks : List DNode} {xs : List Ir} : ScriptC py ks xs → ScriptC py (.cdata d l :: ks) xs
  | text {d : Str} {e : Bool} {l : Nat} {ks : List DNode} {xs ys : List Ir} :
      List.Forall₂ (ScriptNode e) (cut py d) xs → ScriptC py ks ys → ScriptC py (.text d e l :: ks) (xs ++ ys)

theorem ScriptNode.anno {e : Bool} {a : Str ⊕ Str} {x : Ir} (h : ScriptNode e a x) (l : Nat) :
    ScriptNode e a (anno l x) := by
  cases a with
  | inl t =>
    obtain ⟨k, rfl⟩ := h
    refine ⟨if k = 0 then l else k, ?_⟩
    unfold Kajiki.anno
    by_cases hk : k = 0 <;> simp [Ir.ln, Ir.setLn, hk]
  | inr e =>
    obtain ⟨k, rfl⟩ := h
    refine ⟨if k = 0 then l else k, ?_⟩
    unfold Kajiki.anno
    by_cases hk : k = 0 <;> simp [Ir.ln, Ir.setLn, hk]

theorem ScriptC.anno {py : PyCompile} {ks : List DNode} {xs : List Ir} (h : ScriptC py ks xs) (l : Nat) :
    ScriptC py ks (xs.map (anno l)) := by
  induction h with
  | nil => exact .nil
  | cdata _ ih => exact .cdata ih
  | text h _ ih =>
    rw [List.map_append]
    refine .text ?_ ih
    rw [List.forall₂_map_right_iff]
    exact h.imp fun _ _ h => h.anno l

/-! ## Elements -/

/-- The nodes for attributes. -/
def AttrsC (c : CEnv) (g : Option Str) (kvs : List (Str × Str)) (xs : List Ir) : Prop :=
  List.Forall₂ (fun kv x => ∃ vs l, x = .attr kv.1 c.mode g vs l ∧
    List.Forall₂ (PieceNode ⟨false, true⟩) (cut c.py kv.2) vs) kvs xs

/-- The node for `py:attrs`. -/
def DynC (c : CEnv) (g : Option Str) (attrs : Dict Str) (xs : List Ir) : Prop :=
  if (attr attrs "py:attrs").isEmpty then xs = [] else ∃ l, xs = [.attrs (attr attrs "py:attrs") c.mode g l]

/-- The markers around a script. -/
def MarkC (c : CEnv) (s : String) (xs : List Ir) : Prop :=
  if c.mode = "xml".toList then ∃ l, xs = [.text s.toList none l] else xs = []

/-- The end tag of an element with content. -/
def EndC (c : CEnv) (t : Str) (g : Option Str) (xs : List Ir) : Prop :=
  if html c.mode && void t then xs = [] else ∃ l, xs = [.text (close t) g l]

mutual
/-- The nodes and functions for a node in an element `tag`. -/
inductive NodeC (c : CEnv) : Place → Str → DNode → List Ir → Dict (List Ir) → Prop
  | text {p tag d e l xs} : List.Forall₂ (PieceNode ⟨!cdataTags.contains tag, false⟩) (cut c.py d) xs →
      NodeC c p tag (.text d e l) xs []
  | cdata {p tag d l xs} : List.Forall₂ (PieceNode ⟨!cdataTags.contains tag, false⟩) (cut c.py d) xs →
      NodeC c p tag (.cdata d l) xs []
  | hidden {p tag d l} : ['!'].isPrefixOf d = true → NodeC c p tag (.comment d l) [] []
  | comment {p tag d l l'} : ['!'].isPrefixOf d = false →
      NodeC c p tag (.comment d l) [.text ("<!-- ".toList ++ d ++ " -->".toList) none l'] []
  | module {p tag tg d l} : (pyLines (strip d)).1 = true → NodeC c p tag (.pi tg d l) [] []
  | pi {p tag tg d l l'} : (pyLines (strip d)).1 = false → (pyLines (strip d)).2 ≠ [] →
      NodeC c p tag (.pi tg d l) [.python (pyLines (strip d)).2 l'] []
  | auto {p tag t as l ks xs b fs gs} : auto c.opts t as = true → KidsC c p false t ks b fs →
      BlockC c p t ks b xs gs → NodeC c p tag (.elem t as l ks) xs (fs ++ gs)
  | content {p tag t as l ks as' ds l1 l2 l3 l4} : auto c.opts t as = false → dirOf t = none →
      AttrsC c (keepTag (plainAttrs c.opts t as))
        (sortItems ((plainAttrs c.opts t as).filter fun kv => !special kv.1)) as' →
      DynC c (keepTag (plainAttrs c.opts t as)) (plainAttrs c.opts t as) ds →
      (attr (plainAttrs c.opts t as) "py:content").isEmpty = false →
      NodeC c p tag (.elem t as l ks) (.text ('<' :: t) (keepTag (plainAttrs c.opts t as)) l1 :: as' ++ ds ++
        [.text ">".toList (keepTag (plainAttrs c.opts t as)) l2,
         .expr (attr (plainAttrs c.opts t as) "py:content") false l3,
         .text (close t) (keepTag (plainAttrs c.opts t as)) l4]) []
  | empty {p tag t as l as' ds l1 l2} : auto c.opts t as = false → dirOf t = none →
      AttrsC c (keepTag (plainAttrs c.opts t as))
        (sortItems ((plainAttrs c.opts t as).filter fun kv => !special kv.1)) as' →
      DynC c (keepTag (plainAttrs c.opts t as)) (plainAttrs c.opts t as) ds →
      (attr (plainAttrs c.opts t as) "py:content").isEmpty = true →
      NodeC c p tag (.elem t as l []) (.text ('<' :: t) (keepTag (plainAttrs c.opts t as)) l1 :: as' ++ ds ++
        [.text (emptyTag c.mode t) (keepTag (plainAttrs c.opts t as)) l2]) []
  | script {p tag t as l ks as' ds l1 l2 a b xs es} : auto c.opts t as = false → dirOf t = none →
      AttrsC c (keepTag (plainAttrs c.opts t as))
        (sortItems ((plainAttrs c.opts t as).filter fun kv => !special kv.1)) as' →
      DynC c (keepTag (plainAttrs c.opts t as)) (plainAttrs c.opts t as) ds →
      (attr (plainAttrs c.opts t as) "py:content").isEmpty = true → ks.isEmpty = false →
      Spec.DocSem.script c.opts t = true → ScriptC c.py ks xs → MarkC c "/*<![CDATA[*/" a → MarkC c "/*]]>*/" b →
      EndC c t (keepTag (plainAttrs c.opts t as)) es →
      NodeC c p tag (.elem t as l ks) (.text ('<' :: t) (keepTag (plainAttrs c.opts t as)) l1 :: as' ++ ds ++
        (.text ">".toList (keepTag (plainAttrs c.opts t as)) l2 :: (a ++ xs ++ b) ++ es)) []
  | elem {p tag t as l ks as' ds l1 l2 xs fs es} : auto c.opts t as = false → dirOf t = none →
      AttrsC c (keepTag (plainAttrs c.opts t as))
        (sortItems ((plainAttrs c.opts t as).filter fun kv => !special kv.1)) as' →
      DynC c (keepTag (plainAttrs c.opts t as)) (plainAttrs c.opts t as) ds →
      (attr (plainAttrs c.opts t as) "py:content").isEmpty = true → ks.isEmpty = false →
      Spec.DocSem.script c.opts t = false → KidsC c p true t ks xs fs →
      EndC c t (keepTag (plainAttrs c.opts t as)) es →
      NodeC c p tag (.elem t as l ks) (.text ('<' :: t) (keepTag (plainAttrs c.opts t as)) l1 :: as' ++ ds ++
        (.text ">".toList (keepTag (plainAttrs c.opts t as)) l2 :: xs ++ es)) fs
  | replace {p tag t as l ks l'} : auto c.opts t as = false → dirOf t = some .replace →
      NodeC c p tag (.elem t as l ks) [.expr (attr as "value") false l'] []
  | imp {p tag t as l ks l'} : auto c.opts t as = false → dirOf t = some .imp →
      NodeC c p tag (.elem t as l ks) [.imp (attr as "href") (Dict.get as "alias".toList) l'] []
  | incl {p tag t as l ks l'} : auto c.opts t as = false → dirOf t = some .incl →
      NodeC c p tag (.elem t as l ks) [.incl (attr as "href") l'] []
  | ext {p tag t as l ks l' xs fs} : auto c.opts t as = false → dirOf t = some .ext →
      KidsC c p.ext false t ks xs fs → NodeC c p tag (.elem t as l ks) (.ext (attr as "href") l' :: xs) fs
  | block {p tag t as l ks xs b fs gs} : auto c.opts t as = false → dirOf t = some .block →
      KidsC c p false t ks b fs → BlockC c p (attr as "name") ks b xs gs →
      NodeC c p tag (.elem t as l ks) xs (fs ++ gs)
  | inner {p tag t as l ks l' b fs} : auto c.opts t as = false → dirOf t = some .defn → p.inDef = true →
      KidsC c p.fn false t ks b fs →
      NodeC c p tag (.elem t as l ks) [.innerDef (attr as "function") b l'] fs
  | defn {p tag t as l ks b fs} : auto c.opts t as = false → dirOf t = some .defn → p.inDef = false →
      KidsC c p.fn false t ks b fs →
      NodeC c p tag (.elem t as l ks) [] (fs ++ [(attr as "function", b)])
  | call {p tag t as l ks l' b fs} : auto c.opts t as = false → dirOf t = some .call → KidsC c p false t ks b fs →
      NodeC c p tag (.elem t as l ks)
        [.call (Kajiki.replace "$caller".toList (c.gen (afterAll c.opts p ks).calls)
            ("$caller(".toList ++ callArgs ks ++ ")".toList))
          (Kajiki.replace "$caller".toList (c.gen (afterAll c.opts p ks).calls)
            (Kajiki.replace "%caller".toList "$caller".toList (attr as "function"))) b l'] fs
  | forD {p tag t as l ks l' b fs} : auto c.opts t as = false → dirOf t = some .forD → KidsC c p false t ks b fs →
      NodeC c p tag (.elem t as l ks) [.forN (attr as "each") b l'] fs
  | withD {p tag t as l ks l' b fs} : auto c.opts t as = false → dirOf t = some .withD → KidsC c p false t ks b fs →
      NodeC c p tag (.elem t as l ks)
        [.withN ((withAssignments (attr as "vars")).toOption.getD []) b l'] fs
  | switchD {p tag t as l ks l' b b' fs} : auto c.opts t as = false → dirOf t = some .switchD →
      KidsC c p false t ks b fs → switchBody b = .ok b' →
      NodeC c p tag (.elem t as l ks) [.switchN (attr as "test") b' l'] fs
  | caseD {p tag t as l ks l' b fs} : auto c.opts t as = false → dirOf t = some .caseD → KidsC c p false t ks b fs →
      NodeC c p tag (.elem t as l ks) [.caseN (attr as "value") b l'] fs
  | ifD {p tag t as l ks l' b fs} : auto c.opts t as = false → dirOf t = some .ifD → KidsC c p false t ks b fs →
      NodeC c p tag (.elem t as l ks) [.ifN (attr as "test") b l'] fs
  | elseD {p tag t as l ks l' b fs} : auto c.opts t as = false → dirOf t = some .elseD → KidsC c p false t ks b fs →
      NodeC c p tag (.elem t as l ks) [.elseN b l'] fs
  | nop {p tag t as l ks b fs} : auto c.opts t as = false → dirOf t = some .nop → KidsC c p false t ks b fs →
      NodeC c p tag (.elem t as l ks) b fs

/-- What a block leaves at its place, and its function, given its compiled content. -/
inductive BlockC (c : CEnv) : Place → Str → List DNode → List Ir → List Ir → Dict (List Ir) → Prop
  | child {p name ks b l} : (afterAll c.opts p ks).child = true →
      BlockC c p name ks b [] [(blockDecl name,
        .python (pyLines ("parent_block=parent.".toList ++ blockName name)).2 l ::
          if b.isEmpty then [.pass 0] else b)]
  | here {p name ks b l} : (afterAll c.opts p ks).child = false →
      BlockC c p name ks b [.expr (blockDecl name) false l]
        [(blockDecl name, if b.isEmpty then [.pass 0] else b)]

/-- The nodes and functions for several nodes. -/
inductive KidsC (c : CEnv) : Place → Bool → Str → List DNode → List Ir → Dict (List Ir) → Prop
  | nil {p raw tag} : KidsC c p raw tag [] [] []
  | raw {p tag d l ks l' xs fs} : KidsC c p true tag ks xs fs →
      KidsC c p true tag (.cdata d l :: ks) (.text d none l' :: xs) fs
  | cons {p raw tag k ks xs ys fs gs} : (raw = true → ∀ d l, k ≠ .cdata d l) → NodeC c p tag k xs fs →
      KidsC c (after c.opts p k) raw tag ks ys gs → KidsC c p raw tag (k :: ks) (xs ++ ys) (fs ++ gs)
end

/-! ## Line numbers do not matter -/

/-- The line number `_anno` leaves. -/
def newLn (l k : Nat) : Nat := if k = 0 then l else k

theorem anno_text (l k : Nat) (t : Str) (g : Option Str) : anno l (.text t g k) = .text t g (newLn l k) := by
  by_cases h : k = 0 <;> simp [anno, newLn, Ir.ln, Ir.setLn, h]
theorem anno_expr (l k : Nat) (e : Str) (s : Bool) : anno l (.expr e s k) = .expr e s (newLn l k) := by
  by_cases h : k = 0 <;> simp [anno, newLn, Ir.ln, Ir.setLn, h]
theorem anno_attr (l k : Nat) (n m : Str) (g : Option Str) (v : List Ir) :
    anno l (.attr n m g v k) = .attr n m g v (newLn l k) := by
  by_cases h : k = 0 <;> simp [anno, newLn, Ir.ln, Ir.setLn, h]
theorem anno_attrs (l k : Nat) (n m : Str) (g : Option Str) : anno l (.attrs n m g k) = .attrs n m g (newLn l k) := by
  by_cases h : k = 0 <;> simp [anno, newLn, Ir.ln, Ir.setLn, h]
theorem anno_python (l k : Nat) (ls : List Str) : anno l (.python ls k) = .python ls (newLn l k) := by
  by_cases h : k = 0 <;> simp [anno, newLn, Ir.ln, Ir.setLn, h]
theorem anno_imp (l k : Nat) (n : Str) (a : Option Str) : anno l (.imp n a k) = .imp n a (newLn l k) := by
  by_cases h : k = 0 <;> simp [anno, newLn, Ir.ln, Ir.setLn, h]
theorem anno_incl (l k : Nat) (n : Str) : anno l (.incl n k) = .incl n (newLn l k) := by
  by_cases h : k = 0 <;> simp [anno, newLn, Ir.ln, Ir.setLn, h]
theorem anno_ext (l k : Nat) (n : Str) : anno l (.ext n k) = .ext n (newLn l k) := by
  by_cases h : k = 0 <;> simp [anno, newLn, Ir.ln, Ir.setLn, h]
theorem anno_innerDef (l k : Nat) (n : Str) (b : List Ir) : anno l (.innerDef n b k) = .innerDef n b (newLn l k) := by
  by_cases h : k = 0 <;> simp [anno, newLn, Ir.ln, Ir.setLn, h]
theorem anno_call (l k : Nat) (n c : Str) (b : List Ir) : anno l (.call n c b k) = .call n c b (newLn l k) := by
  by_cases h : k = 0 <;> simp [anno, newLn, Ir.ln, Ir.setLn, h]
theorem anno_forN (l k : Nat) (n : Str) (b : List Ir) : anno l (.forN n b k) = .forN n b (newLn l k) := by
  by_cases h : k = 0 <;> simp [anno, newLn, Ir.ln, Ir.setLn, h]
theorem anno_withN (l k : Nat) (n : List (Str × Str)) (b : List Ir) :
    anno l (.withN n b k) = .withN n b (newLn l k) := by
  by_cases h : k = 0 <;> simp [anno, newLn, Ir.ln, Ir.setLn, h]
theorem anno_switchN (l k : Nat) (n : Str) (b : List Ir) : anno l (.switchN n b k) = .switchN n b (newLn l k) := by
  by_cases h : k = 0 <;> simp [anno, newLn, Ir.ln, Ir.setLn, h]
theorem anno_caseN (l k : Nat) (n : Str) (b : List Ir) : anno l (.caseN n b k) = .caseN n b (newLn l k) := by
  by_cases h : k = 0 <;> simp [anno, newLn, Ir.ln, Ir.setLn, h]
theorem anno_ifN (l k : Nat) (n : Str) (b : List Ir) : anno l (.ifN n b k) = .ifN n b (newLn l k) := by
  by_cases h : k = 0 <;> simp [anno, newLn, Ir.ln, Ir.setLn, h]
theorem anno_elseN (l k : Nat) (b : List Ir) : anno l (.elseN b k) = .elseN b (newLn l k) := by
  by_cases h : k = 0 <;> simp [anno, newLn, Ir.ln, Ir.setLn, h]

theorem AttrsC.anno {c : CEnv} {g : Option Str} {kvs : List (Str × Str)} {xs : List Ir} (h : AttrsC c g kvs xs)
    (l : Nat) : AttrsC c g kvs (xs.map (anno l)) := by
  unfold AttrsC at h ⊢
  rw [List.forall₂_map_right_iff]
  refine h.imp fun kv x h => ?_
  obtain ⟨vs, k, rfl, hv⟩ := h
  exact ⟨vs, _, anno_attr .., hv⟩

theorem DynC.anno {c : CEnv} {g : Option Str} {as : Dict Str} {xs : List Ir} (h : DynC c g as xs)
    (l : Nat) : DynC c g as (xs.map (anno l)) := by
  unfold DynC at h ⊢
  split
  · next he => rw [if_pos he] at h; subst h; rfl
  · next he =>
    rw [if_neg he] at h
    obtain ⟨k, rfl⟩ := h
    exact ⟨_, by rw [List.map_cons, anno_attrs]; rfl⟩

theorem MarkC.anno {c : CEnv} {s : String} {xs : List Ir} (h : MarkC c s xs)
    (l : Nat) : MarkC c s (xs.map (anno l)) := by
  unfold MarkC at h ⊢
  split
  · next he =>
    rw [if_pos he] at h
    obtain ⟨k, rfl⟩ := h
    exact ⟨_, by rw [List.map_cons, anno_text]; rfl⟩
  · next he => rw [if_neg he] at h; subst h; rfl

theorem EndC.anno {c : CEnv} {t : Str} {g : Option Str} {xs : List Ir} (h : EndC c t g xs)
    (l : Nat) : EndC c t g (xs.map (anno l)) := by
  unfold EndC at h ⊢
  split
  · next he => rw [if_pos he] at h; subst h; rfl
  · next he =>
    rw [if_neg he] at h
    obtain ⟨k, rfl⟩ := h
    exact ⟨_, by rw [List.map_cons, anno_text]; rfl⟩

theorem BlockC.anno {c : CEnv} {p : Place} {n : Str} {ks : List DNode} {b xs : List Ir} {gs : Dict (List Ir)}
    (h : BlockC c p n ks b xs gs) (l : Nat) : BlockC c p n ks b (xs.map (anno l)) gs := by
  cases h with
  | child h => exact .child h
  | here h => rw [List.map_cons, anno_expr]; exact .here h

mutual
theorem NodeC.anno {c : CEnv} {p : Place} {tag : Str} {x : DNode} {ys : List Ir} {fs : Dict (List Ir)}
    (h : NodeC c p tag x ys fs) (l : Nat) : NodeC c p tag x (ys.map (anno l)) fs := by
  cases h with
  | text h => exact .text (pieces_anno h l)
  | cdata h => exact .cdata (pieces_anno h l)
  | hidden h => exact .hidden h
  | comment h => rw [List.map_cons, anno_text]; exact .comment h
  | «module» h => exact .module h
  | pi h h2 => rw [List.map_cons, anno_python]; exact .pi h h2
  | auto h h2 h3 => exact .auto h h2 (h3.anno l)
  | content h h1 h2 h3 h4 =>
    simp only [List.map_cons, List.map_append, List.map_nil, anno_text, anno_expr, List.cons_append]
    exact .content h h1 (h2.anno l) (h3.anno l) h4
  | empty h h1 h2 h3 h4 =>
    simp only [List.map_cons, List.map_append, List.map_nil, anno_text, List.cons_append]
    exact .empty h h1 (h2.anno l) (h3.anno l) h4
  | script h h1 h2 h3 h4 h5 h6 h7 h8 h9 h10 =>
    simp only [List.map_cons, List.map_append, anno_text, List.cons_append]
    exact .script h h1 (h2.anno l) (h3.anno l) h4 h5 h6 (h7.anno l) (h8.anno l) (h9.anno l) (h10.anno l)
  | elem h h1 h2 h3 h4 h5 h6 h7 h8 =>
    simp only [List.map_cons, List.map_append, anno_text, List.cons_append]
    exact .elem h h1 (h2.anno l) (h3.anno l) h4 h5 h6 (h7.anno l) (h8.anno l)
  | replace h h1 => rw [List.map_cons, anno_expr]; exact .replace h h1
  | imp h h1 => rw [List.map_cons, anno_imp]; exact .imp h h1
  | incl h h1 => rw [List.map_cons, anno_incl]; exact .incl h h1
  | ext h h1 h2 => rw [List.map_cons, anno_ext]; exact .ext h h1 (h2.anno l)
  | block h h1 h2 h3 => exact .block h h1 h2 (h3.anno l)
  | inner h h1 h2 h3 => rw [List.map_cons, anno_innerDef]; exact .inner h h1 h2 h3
  | defn h h1 h2 h3 => exact .defn h h1 h2 h3
  | call h h1 h2 => rw [List.map_cons, anno_call]; exact .call h h1 h2
  | forD h h1 h2 => rw [List.map_cons, anno_forN]; exact .forD h h1 h2
  | withD h h1 h2 => rw [List.map_cons, anno_withN]; exact .withD h h1 h2
  | switchD h h1 h2 h3 => rw [List.map_cons, anno_switchN]; exact .switchD h h1 h2 h3
  | caseD h h1 h2 => rw [List.map_cons, anno_caseN]; exact .caseD h h1 h2
  | ifD h h1 h2 => rw [List.map_cons, anno_ifN]; exact .ifD h h1 h2
  | elseD h h1 h2 => rw [List.map_cons, anno_elseN]; exact .elseD h h1 h2
  | nop h h1 h2 => exact .nop h h1 (h2.anno l)

theorem KidsC.anno {c : CEnv} {p : Place} {raw : Bool} {tag : Str} {xs : List DNode} {ys : List Ir}
    {fs : Dict (List Ir)} (h : KidsC c p raw tag xs ys fs) (l : Nat) :
    KidsC c p raw tag xs (ys.map (anno l)) fs := by
  cases h with
  | nil => exact .nil
  | raw h => rw [List.map_cons, anno_text]; exact .raw (h.anno l)
  | cons h h2 h3 => rw [List.map_append]; exact .cons h (h2.anno l) (h3.anno l)
end

/-! ## Tags and attributes -/

/-- The method for a directive. -/
def kindD : Dir → Kind
  | .replace => .replace | .imp => .imp | .ext => .ext | .incl => .incl | .block => .block | .defn => .defn
  | .call => .call | .forD => .forK | .withD => .withK | .switchD => .switchK | .caseD => .caseK | .ifD => .ifK
  | .elseD => .elseK | .nop => .nop

theorem kindOf_dir {tag : Str} {d : Dir} (h : dirOf tag = some d) : kindOf tag = kindD d := by
  have := Dict.get_eq_some_mem h
  have all : ∀ e ∈ Spec.DocSem.directives, kindOf e.1 = kindD e.2 := by decide +kernel
  exact all _ this

theorem kindOf_none {tag : Str} (h : (!"py:".toList.isPrefixOf tag) = true) : kindOf tag = .xml := by
  unfold kindOf
  rw [Bool.not_eq_true'] at h
  rw [h]
  rfl

theorem del_eq {α : Type} (d : Dict α) (k : Str) : d.del k = d.filter (·.1 ≠ k) := by
  unfold Dict.del
  refine List.filter_congr fun x _ => ?_
  by_cases hx : x.1 = k <;> simp [hx]

/-- The attributes an ordinary element is compiled with. -/
theorem autoblock_plain {env : CEnv} {tag : Str} {as : Dict Str} {r : Bool × Dict Str}
    (h : isAutoblock env tag as = .ok r) :
    r.1 = auto env.opts tag as ∧ (r.1 = false → r.2 = plainAttrs env.opts tag as) ∧
      (r.1 = true → r.2 = as) := by
  refine ⟨(isAutoblock_ok h).1, ?_, ?_⟩
  all_goals
    unfold isAutoblock at h
    intro hr
  · unfold plainAttrs
    split at h
    · next hc =>
      rw [if_pos hc]
      split at h
      · cases h; cases hr
      · simp only at h
        split at h
        · cases h
          exact del_eq _ _
        · split at h
          · cases h; cases hr
          · cases h
    · next hc => cases h; rw [if_neg hc]
  · split at h
    · split at h
      · cases h; rfl
      · simp only at h
        split at h
        · cases h; cases hr
        · split at h
          · cases h; rfl
          · cases h
    · cases h; cases hr

theorem get_filter {α : Type} (d : Dict α) (p : Str × α → Bool) (k : Str) (h : ∀ v, p (k, v) = true) :
    Dict.get (d.filter p) k = Dict.get d k := by
  induction d with
  | nil => rfl
  | cons x d ih =>
    obtain ⟨a, v⟩ := x
    by_cases ha : a = k
    · subst ha
      rw [List.filter_cons_of_pos (h v)]
      simp [Dict.get]
    · cases hp : p (a, v)
      · rw [List.filter_cons_of_neg (by simp [hp]), ih]; simp [Dict.get, ha]
      · rw [List.filter_cons_of_pos hp]; simp [Dict.get, ha, ih]

theorem get_plain (o : Opts) (tag : Str) (as : Dict Str) (k : Str) (hk : k ≠ "py:autoblock".toList) :
    Dict.get (plainAttrs o tag as) k = Dict.get as k := by
  unfold plainAttrs
  split
  · exact get_filter _ _ _ fun _ => decide_eq_true hk
  · rfl

theorem attr_plain (o : Opts) (tag : Str) (as : Dict Str) (k : String) (hk : k.toList ≠ "py:autoblock".toList) :
    attr (plainAttrs o tag as) k = attr as k := by
  unfold attr; rw [get_plain _ _ _ _ hk]

/-! ### Sorting -/

/-- In order. -/
abbrev Sorted (l : List (Str × Str)) : Prop := l.Pairwise fun a b => strLt b.1 a.1 = false

theorem strLt_asymm {a b : Str} (h : strLt a b = true) : strLt b a = false := by
  cases hb : strLt b a
  · rfl
  · have := strLt_trans _ _ _ h hb
    rw [strLt_irrefl] at this; cases this

/-- `≤` is transitive. -/
theorem le_trans' {a b c : Str} (h : strLt b a = false) (h2 : strLt c b = false) : strLt c a = false := by
  cases hc : strLt c a
  · rfl
  · rcases strLt_total a b with h3 | h3 | h3
    · rw [strLt_trans _ _ _ hc h3] at h2; cases h2
    · subst h3; rw [hc] at h2; cases h2
    · rw [h3] at h; cases h

theorem insertAttr_mem {kv x : Str × Str} {l : List (Str × Str)} (h : x ∈ insertAttr kv l) : x = kv ∨ x ∈ l := by
  induction l with
  | nil => exact .inl (List.mem_singleton.1 h)
  | cons y l ih =>
    unfold insertAttr at h
    split at h
    · rcases List.mem_cons.1 h with h | h
      · exact .inr (h ▸ List.mem_cons_self)
      · exact (ih h).imp id (List.mem_cons_of_mem _)
    · exact List.mem_cons.1 h

theorem insertAttr_sorted {kv : Str × Str} {l : List (Str × Str)} (h : Sorted l) : Sorted (insertAttr kv l) := by
  induction l with
  | nil => exact List.pairwise_singleton _ _
  | cons y l ih =>
    obtain ⟨h1, h2⟩ := List.pairwise_cons.1 h
    unfold insertAttr
    split
    · next hy =>
      refine List.pairwise_cons.2 ⟨fun z hz => ?_, ih h2⟩
      rcases insertAttr_mem hz with rfl | hz
      · exact strLt_asymm hy
      · exact h1 z hz
    · next hy =>
      rw [Bool.not_eq_true] at hy
      refine List.pairwise_cons.2 ⟨fun z hz => ?_, h⟩
      rcases List.mem_cons.1 hz with rfl | hz
      · exact hy
      · exact le_trans' hy (h1 z hz)

theorem sortItems_sorted (as : Dict Str) : Sorted (sortItems as) := by
  induction as with
  | nil => exact List.Pairwise.nil
  | cons x as ih => exact insertAttr_sorted ih

theorem insertAttr_front {kv : Str × Str} {l : List (Str × Str)} (h : ∀ x ∈ l, strLt x.1 kv.1 = false) :
    insertAttr kv l = kv :: l := by
  cases l with
  | nil => rfl
  | cons x l => simp [insertAttr, h x List.mem_cons_self]

theorem filter_insertAttr (q : Str × Str → Bool) {kv : Str × Str} {l : List (Str × Str)} (h : Sorted l) :
    (insertAttr kv l).filter q = if q kv then insertAttr kv (l.filter q) else l.filter q := by
  induction l with
  | nil => cases hq : q kv <;> simp [insertAttr, hq]
  | cons y l ih =>
    obtain ⟨h1, h2⟩ := List.pairwise_cons.1 h
    rw [insertAttr]
    split
    · next hy =>
      rw [List.filter_cons, ih h2, List.filter_cons]
      split
      · split
        · conv => rhs; unfold insertAttr
          rw [if_pos hy]
        · rfl
      · rfl
    · next hy =>
      rw [Bool.not_eq_true] at hy
      rw [List.filter_cons]
      split
      · rw [insertAttr_front]
        intro x hx
        rcases List.mem_cons.1 (List.mem_of_mem_filter hx) with rfl | hx
        · exact hy
        · exact le_trans' hy (h1 x hx)
      · rfl

theorem filter_sortItems (q : Str × Str → Bool) (as : Dict Str) : (sortItems as).filter q = sortItems (as.filter q) := by
  induction as with
  | nil => rfl
  | cons x as ih =>
    change (insertAttr x (sortItems as)).filter q = _
    rw [filter_insertAttr q (sortItems_sorted as), ih, List.filter_cons]
    split <;> rfl

theorem compileAttrs_rel {c : CEnv} {g : Option Str} {ln : Nat} {as : List (Str × Str)} {xs : List Ir}
    (h : compileAttrs c g ln as = .ok xs) : AttrsC c g (as.filter fun kv => !specialAttrs.contains kv.1) xs := by
  induction as generalizing xs with
  | nil => cases h; exact .nil
  | cons kv as ih =>
    obtain ⟨k, v⟩ := kv
    simp only [compileAttrs] at h
    split at h
    · cases h
    · next vs hv =>
      obtain ⟨ys, hy, rfl⟩ := prepend_ok.1 h
      rw [List.filter_cons]
      cases hs : specialAttrs.contains k
      · simp only [Bool.not_false, if_true]
        exact .cons ⟨vs, 0, rfl, text_pieces hv⟩ (ih hy)
      · simp only [Bool.not_true, Bool.false_eq_true, if_false, if_true]
        exact ih hy

theorem special_eq (k : Str) :
    special k = decide (k = "py:content".toList ∨ k = "py:attrs".toList ∨ k = "py:strip".toList) := by
  unfold special; rfl

theorem contains_two (a b k : Str) : [a, b].contains k = decide (k = a ∨ k = b) := by
  by_cases h : k = a <;> by_cases h2 : k = b <;> simp [h, h2]

theorem special_split (k : Str) :
    (!special k) = (!specialAttrs.contains k && decide (k ≠ "py:strip".toList)) := by
  rw [special_eq]
  have : specialAttrs = ["py:content".toList, "py:attrs".toList] := rfl
  rw [this, contains_two]
  generalize "py:content".toList = a
  generalize "py:attrs".toList = b
  generalize "py:strip".toList = d
  by_cases h : k = a <;> by_cases h2 : k = b <;> by_cases h3 : k = d <;> simp [h, h2, h3]

theorem attrs_rel {c : CEnv} {g : Option Str} {ln : Nat} {as : Dict Str} {xs : List Ir}
    (h : compileAttrs c g ln (sortItems (as.del "py:strip".toList)) = .ok xs) :
    AttrsC c g (sortItems (as.filter fun kv => !special kv.1)) xs := by
  have := compileAttrs_rel h
  rw [filter_sortItems, del_eq, List.filter_filter] at this
  have he : (fun kv : Str × Str => !special kv.1) =
      fun kv => !specialAttrs.contains kv.1 && decide (kv.1 ≠ "py:strip".toList) := by
    funext kv; exact special_split kv.1
  rw [he]
  exact this

/-! ## Tables of functions -/

theorem update_append {α : Type} (d e f : Dict α) : Dict.update d (e ++ f) = Dict.update (Dict.update d e) f :=
  List.foldl_append

theorem set_set {α : Type} (d : Dict α) (k : Str) (v w : α) : (d.set k v).set k w = d.set k w := by
  induction d with
  | nil => simp [Dict.set]
  | cons x d ih =>
    obtain ⟨a, u⟩ := x
    by_cases h : a = k <;> simp [Dict.set, h, ih]

/-! ## The compiler makes what the relation describes -/

/-- The registries are those of a place. -/
structure Match (s : CState) (p : Place) : Prop where
  inDef : s.inDef = p.inDef
  child : s.isChild = p.child
  calls : s.fresh = p.calls

/-- From a place to a place. -/
def Gives (m : CM (List Ir)) (p p' : Place) (Q : List Ir → Dict (List Ir) → Prop) : Prop :=
  ∀ s ys s', Match s p → m s = .ok (ys, s') →
    ∃ fs, Q ys fs ∧ Match s' p' ∧ s'.funs = Dict.update s.funs fs

theorem Gives.mono {m : CM (List Ir)} {p p' : Place} {Q Q' : List Ir → Dict (List Ir) → Prop}
    (h : Gives m p p' Q) (hq : ∀ ys fs, Q ys fs → Q' ys fs) : Gives m p p' Q' := by
  intro s ys s' hs he
  obtain ⟨fs, h1, h2, h3⟩ := h s ys s' hs he
  exact ⟨fs, hq _ _ h1, h2, h3⟩

theorem Gives.pure {p : Place} {ys : List Ir} {Q : List Ir → Dict (List Ir) → Prop} (h : Q ys []) :
    Gives (CM.pure ys) p p Q := by
  intro s ys' s' hs he
  cases pure_ok.1 he
  exact ⟨[], h, hs, rfl⟩

theorem Gives.throw {p p' : Place} {e : Err} {Q : List Ir → Dict (List Ir) → Prop} :
    Gives (CM.throw e) p p' Q := by
  intro s ys' s' hs he; cases he

theorem Gives.lift {α : Type} {x : Except Err α} {f : α → CM (List Ir)} {p p' : Place}
    {Q : List Ir → Dict (List Ir) → Prop} (h : ∀ a, x = .ok a → Gives (f a) p p' Q) :
    Gives (CM.bind (CM.lift x) f) p p' Q := by
  intro s ys s' hs he
  obtain ⟨a, s1, h1, h2⟩ := bind_ok.1 he
  obtain ⟨h3, h4⟩ := lift_ok.1 h1
  simp only at h3 h4
  subst h4
  exact h a h3 s1 ys s' hs h2

/-- A compilation whose result is only wrapped. -/
theorem Gives.wrap {m : CM (List Ir)} {f : List Ir → List Ir} {p p' : Place} {Q Q' : List Ir → Dict (List Ir) → Prop}
    (h : Gives m p p' Q) (hf : ∀ b fs, Q b fs → Q' (f b) fs) :
    Gives (CM.bind m fun b => CM.pure (f b)) p p' Q' := by
  intro s ys s' hs he
  obtain ⟨b, s1, h1, h2⟩ := bind_ok.1 he
  cases pure_ok.1 h2
  obtain ⟨fs, q, h3, h4⟩ := h s b _ hs h1
  exact ⟨fs, hf _ _ q, h3, h4⟩

theorem Gives.bindLift {α : Type} {m : CM (List Ir)} {x : List Ir → Except Err α} {f : List Ir → α → List Ir} {p p' : Place}
    {Q Q' : List Ir → Dict (List Ir) → Prop}
    (h : Gives m p p' Q) (hf : ∀ b fs a, Q b fs → x b = .ok a → Q' (f b a) fs) :
    Gives (CM.bind m fun b => CM.bind (CM.lift (x b)) fun a => CM.pure (f b a)) p p' Q' := by
  intro s ys s' hs he
  obtain ⟨b, s1, h1, h2⟩ := bind_ok.1 he
  obtain ⟨a, s2, h3, h4⟩ := bind_ok.1 h2
  obtain ⟨h5, h6⟩ := lift_ok.1 h3
  simp only at h5 h6
  cases pure_ok.1 h4
  subst h6
  obtain ⟨fs, q, h3, h4⟩ := h s b _ hs h1
  exact ⟨fs, hf _ _ _ q h5, h3, h4⟩

theorem Gives.annotate {m : CM (List Ir)} {p p' : Place} {Q : List Ir → Dict (List Ir) → Prop} (l : Nat)
    (h : Gives m p p' Q) (hq : ∀ b fs, Q b fs → Q (b.map (anno l)) fs) : Gives (annotate l m) p p' Q :=
  h.wrap hq

theorem gives_text (c : CEnv) (p : Place) (parent : Option Str) (tag d : Str) (l : Nat)
    (hp : ∀ q, parent = some q → q = tag) :
    Gives (compileText c parent d l) p p fun ys fs =>
      fs = [] ∧ List.Forall₂ (PieceNode ⟨!cdataTags.contains tag, false⟩) (cut c.py d) ys := by
  unfold compileText
  cases parent with
  | none => exact .throw
  | some q =>
    have := hp q rfl
    subst this
    refine Gives.annotate l ?_ fun b fs h => ⟨h.1, pieces_anno h.2 l⟩
    intro s ys s' hs he
    obtain ⟨h5, h6⟩ := lift_ok.1 he
    simp only at h5 h6
    subst h6
    exact ⟨[], ⟨rfl, text_pieces h5⟩, hs, rfl⟩

theorem script_pieces {ps : List (Str ⊕ Str)} {xs : List Ir} (h : List.Forall₂ (PieceNode ⟨false, false⟩) ps xs) :
    List.Forall₂ (ScriptNode false) ps xs := by
  refine h.imp fun a x h => ?_
  cases a with
  | inl t => obtain ⟨l, rfl⟩ := h; exact ⟨l, by simp [textNode]⟩
  | inr e => obtain ⟨l, rfl⟩ := h; exact ⟨l, by simp⟩

theorem script_unescaped {ps : List (Str ⊕ Str)} {xs ys : List Ir}
    (h : List.Forall₂ (PieceNode ⟨false, false⟩) ps xs) (hu : unescapeNodes xs = .ok ys) :
    List.Forall₂ (ScriptNode true) ps ys := by
  induction h generalizing ys with
  | nil => cases hu; exact .nil
  | @cons a x ps xs h _ ih =>
    unfold unescapeNodes at hu
    split at hu
    · cases hu
    · next y hy =>
      obtain ⟨zs, hz, rfl⟩ := prepend_ok.1 hu
      refine .cons ?_ (ih hz)
      cases a with
      | inl t =>
        obtain ⟨l, rfl⟩ := h
        refine ⟨l, ?_⟩
        simp only [textNode, Bool.false_and, Bool.false_eq_true, if_false, unescapeNode] at hy
        unfold resolve
        cases hr : unescape t with
        | error e => rw [hr] at hy; cases hy
        | ok t' => rw [hr] at hy; cases hy; rfl
      | inr e =>
        obtain ⟨l, rfl⟩ := h
        refine ⟨l, ?_⟩
        simp only [unescapeNode] at hy
        unfold resolve
        cases hr : unescape e with
        | error e => rw [hr] at hy; cases hy
        | ok t' => rw [hr] at hy; cases hy; rfl

theorem gives_script (c : CEnv) (p : Place) (tag : Str) (ht : cdataTags.contains tag = true) (ks : List DNode) :
    Gives (compileScript c tag ks) p p fun ys fs => fs = [] ∧ ScriptC c.py ks ys := by
  induction ks with
  | nil => exact .pure ⟨rfl, .nil⟩
  | cons k ks ih =>
    cases k with
    | cdata d l => exact Gives.mono ih fun ys fs h => ⟨h.1, .cdata h.2⟩
    | text d e l =>
      intro s ys s' hs he
      unfold compileScript at he
      obtain ⟨b, s1, h1, h2⟩ := bind_ok.1 he
      obtain ⟨b', s2, h3, h4⟩ := bind_ok.1 h2
      obtain ⟨b2, s3, h5, h6⟩ := bind_ok.1 h4
      obtain ⟨h7, h8⟩ := lift_ok.1 h3
      cases pure_ok.1 h6
      simp only at h7 h8
      subst h8
      obtain ⟨fs, ⟨rfl, hq⟩, hm, hf⟩ := gives_text c p (some tag) tag d l (by rintro _ ⟨⟩; rfl) s b _ hs h1
      obtain ⟨gs, ⟨rfl, hq2⟩, hm2, hf2⟩ := ih s2 b2 _ hm h5
      refine ⟨[], ⟨rfl, .text ?_ hq2⟩, hm2, by rw [hf2, hf]; rfl⟩
      rw [ht] at hq
      cases e with
      | true => exact script_unescaped hq h7
      | false => cases h7; exact script_pieces hq
    | _ => exact .throw

/-! ### Elements -/

theorem emptyEnd_eq (mode tag : Str) : emptyEnd mode tag = emptyTag mode tag := by
  unfold emptyEnd emptyTag
  have h : requiredEndTags.contains tag = decide (tag = "script".toList) := by
    unfold requiredEndTags
    by_cases h : tag = "script".toList
    · subst h; decide +kernel
    · rw [decide_eq_false h]
      unfold List.contains List.elem
      rw [beq_false_of_ne h]
      rfl
  have hv : void "script".toList = false := by decide +kernel
  rw [h]
  change (if decide (tag = "script".toList) = true then ">".toList ++ close tag
    else if html mode = true then if void tag = true then ">".toList else ">".toList ++ close tag else "/>".toList) = _
  by_cases hs : tag = "script".toList
  · subst hs
    rw [hv]
    simp only [decide_true, if_true, Bool.and_false, Bool.false_eq_true, if_false, Bool.or_true]
  · rw [decide_eq_false hs]
    cases html mode <;> cases void tag <;> rfl

theorem dyn_rel (c : CEnv) (g : Option Str) (as : Dict Str) : DynC c g as (attrsNode c g as) := by
  unfold DynC attrsNode
  change if (attr as "py:attrs").isEmpty = true then (if (attr as "py:attrs").isEmpty = true then _ else _) = _
    else ∃ l, (if (attr as "py:attrs").isEmpty = true then _ else _) = _
  split
  · rfl
  · exact ⟨0, rfl⟩

theorem mark_rel (c : CEnv) (s : String) : MarkC c s (scriptMark c.mode s) := by
  unfold MarkC scriptMark
  split
  · exact ⟨0, rfl⟩
  · rfl

theorem end_rel (c : CEnv) (t : Str) (g : Option Str) : EndC c t g (fullEnd c.mode t g) := by
  unfold EndC fullEnd
  change if (html c.mode && void t) = true then (if (html c.mode && void t) = true then _ else _) = _
    else ∃ l, (if (html c.mode && void t) = true then _ else _) = _
  split
  · rfl
  · exact ⟨0, rfl⟩

theorem script_eq (c : CEnv) (t : Str) : isScript c t = script c.opts t := by
  unfold isScript script scriptTag
  have : cdataTags = ["script".toList, "style".toList] := rfl
  rw [this, contains_two]

theorem scriptTag_eq (t : Str) : scriptTag t = cdataTags.contains t := by
  unfold scriptTag
  have : cdataTags = ["script".toList, "style".toList] := rfl
  rw [this, contains_two]

theorem gives_block (c : CEnv) (p : Place) (name : Str) (ks : List DNode) (m : CM (List Ir))
    {Q : List Ir → Dict (List Ir) → Prop} (h : Gives m p (afterAll c.opts p ks) Q) :
    Gives (CM.bind m fun b => finishBlock name b) p (afterAll c.opts p ks) fun ys fs =>
      ∃ b gs hs, fs = gs ++ hs ∧ Q b gs ∧ BlockC c p name ks b ys hs := by
  intro s ys s' hs he
  obtain ⟨b, s1, h1, h2⟩ := bind_ok.1 he
  obtain ⟨gs, q, hm, hf⟩ := h s b s1 hs h1
  unfold finishBlock at h2
  obtain ⟨u, s2, h3, h4⟩ := bind_ok.1 h2
  cases h3
  obtain ⟨u, s2, h3, h5⟩ := bind_ok.1 h4
  cases h3
  simp only at h5
  split at h5
  · next hc =>
    obtain ⟨p1, s3, h6, h7⟩ := bind_ok.1 h5
    obtain ⟨h8, h9⟩ := lift_ok.1 h6
    simp only at h8 h9
    obtain ⟨u, s4, h10, h11⟩ := bind_ok.1 h7
    cases h10
    cases pure_ok.1 h11
    subst h9
    have hp : (pyLines ("parent_block=parent.".toList ++ blockName name)).2 = p1.2 := by
      unfold pyLines blockName
      rw [h8]
    refine ⟨gs ++ _, ⟨b, gs, _, rfl, q, .child (l := 0) (hm.child ▸ hc)⟩,
      ⟨hm.inDef, hm.child, hm.calls⟩, ?_⟩
    rw [update_append, ← hf, hp]
    exact set_set _ _ _ _
  · next hc =>
    cases pure_ok.1 h5
    rw [Bool.not_eq_true] at hc
    refine ⟨gs ++ _, ⟨b, gs, _, rfl, q, .here (l := 0) (hm.child ▸ hc)⟩,
      ⟨hm.inDef, hm.child, hm.calls⟩, ?_⟩
    rw [update_append, ← hf]
    rfl

/-- The place after the element of a directive. -/
def afterDir (o : Opts) (p : Place) (ks : List DNode) : Dir → Place
  | .replace => p
  | .imp => p
  | .incl => p
  | .ext => afterAll o p.ext ks
  | .defn => { afterAll o p.fn ks with inDef := p.inDef }
  | .call => let q := afterAll o p ks; { q with calls := q.calls + 1 }
  | _ => afterAll o p ks

theorem after_dir {o : Opts} (p : Place) {t : Str} {as : Dict Str} {l : Nat} {ks : List DNode} {d : Dir}
    (ha : auto o t as = false) (hd : dirOf t = some d) : after o p (.elem t as l ks) = afterDir o p ks d := by
  simp only [after]
  rw [if_neg (by simp [ha]), hd]
  cases d <;> rfl

/-- The element of a directive, given its content. -/
theorem gives_kind (c : CEnv) (ctx : Ctx) (p : Place) (tag t : Str) (as : Dict Str) (l : Nat) (ks : List DNode)
    (as' : Dict Str)
    (hA : ∀ k, k ≠ "py:autoblock".toList → Dict.get as' k = Dict.get as k) (nop : CM (List Ir)) (d : Dir)
    (hn : d ≠ .replace → d ≠ .imp → d ≠ .incl → ∀ p, Gives nop p (afterAll c.opts p ks) (KidsC c p false t ks))
    (ha : auto c.opts t as = false) (hd : dirOf t = some d) :
    Gives (compileKind c ctx as' ks nop (kindD d)) p (after c.opts p (.elem t as l ks))
      (NodeC c p tag (.elem t as l ks)) := by
  have hafter := after_dir p ha hd (l := l) (ks := ks)
  rw [hafter]
  have hg : ∀ k : Str, k ≠ "py:autoblock".toList → getAttr as' k = (Dict.get as k).getD [] := by
    intro k hk; unfold getAttr; rw [hA k hk]
  have ek : ∀ k ∈ ["value", "href", "name", "function", "each", "vars", "test"].map String.toList,
    k ≠ "py:autoblock".toList := by decide +kernel
  have e1 : getAttr as' "value".toList = attr as "value" := hg _ (ek _ (by decide +kernel))
  have e2 : getAttr as' "href".toList = attr as "href" := hg _ (ek _ (by decide +kernel))
  have e3 : getAttr as' "name".toList = attr as "name" := hg _ (ek _ (by decide +kernel))
  have e4 : getAttr as' "function".toList = attr as "function" := hg _ (ek _ (by decide +kernel))
  have e5 : getAttr as' "each".toList = attr as "each" := hg _ (ek _ (by decide +kernel))
  have e6 : getAttr as' "vars".toList = attr as "vars" := hg _ (ek _ (by decide +kernel))
  have e7 : getAttr as' "test".toList = attr as "test" := hg _ (ek _ (by decide +kernel))
  have e8 : Dict.get as' "alias".toList = Dict.get as "alias".toList := hA _ (by decide +kernel)
  simp only [kindD, compileKind, importNode, e1, e2, e3, e4, e5, e6, e7, e8]
  clear hafter hg ek e1 e2 e3 e4 e5 e6 e7 e8
  cases d with
  | replace => exact .pure (.replace ha hd)
  | imp => exact .pure (.imp ha hd)
  | incl => exact .pure (.incl ha hd)
  | ext =>
    have hn := hn (by simp) (by simp) (by simp)
    intro s ys s' hs he
    simp only at he
    obtain ⟨u, s1, h1, h2⟩ := bind_ok.1 he
    cases h1
    obtain ⟨b, s2, h3, h4⟩ := bind_ok.1 h2
    cases pure_ok.1 h4
    obtain ⟨fs, q, hm, hf⟩ := hn p.ext { s with isChild := true } b _ ⟨hs.inDef, rfl, hs.calls⟩ h3
    exact ⟨fs, .ext ha hd q, hm, hf⟩
  | block =>
    have hn := hn (by simp) (by simp) (by simp)
    refine (gives_block c p (attr as "name") ks nop (hn p)).mono ?_
    rintro ys fs ⟨b, gs, hs, rfl, h1, h2⟩
    exact .block ha hd h1 h2
  | defn =>
    have hn := hn (by simp) (by simp) (by simp)
    intro s ys s' hs he
    change compileDef (attr as "function") nop s = _ at he
    unfold compileDef at he
    obtain ⟨s0, s1, h1, h2⟩ := bind_ok.1 he
    cases h1
    obtain ⟨u, s1, h1, h3⟩ := bind_ok.1 h2
    cases h1
    obtain ⟨b, s1, h1, h4⟩ := bind_ok.1 h3
    obtain ⟨u, s2, h5, h6⟩ := bind_ok.1 h4
    cases h5
    obtain ⟨fs, q, hm, hf⟩ := hn p.fn { s with inDef := true } b s1 ⟨rfl, hs.child, hs.calls⟩ h1
    simp only at h6
    split at h6
    · next hi =>
      cases pure_ok.1 h6
      exact ⟨fs, .inner ha hd (hs.inDef ▸ hi) q, ⟨hs.inDef, hm.child, hm.calls⟩, hf⟩
    · next hi =>
      rw [Bool.not_eq_true] at hi
      obtain ⟨u, s2, h7, h8⟩ := bind_ok.1 h6
      cases h7
      cases pure_ok.1 h8
      refine ⟨_, .defn ha hd (hs.inDef ▸ hi) q, ⟨hs.inDef, hm.child, hm.calls⟩, ?_⟩
      rw [update_append, ← hf]
      rfl
  | call =>
    have hn := hn (by simp) (by simp) (by simp)
    intro s ys s' hs he
    change compileCall c (attr as "function") ks nop s = _ at he
    unfold compileCall at he
    obtain ⟨df, s1, h1, h2⟩ := bind_ok.1 he
    obtain ⟨h3, h4⟩ := lift_ok.1 h1
    simp only at h3 h4
    subst h4
    obtain ⟨b, s2, h5, h6⟩ := bind_ok.1 h2
    obtain ⟨s3, s4, h7, h8⟩ := bind_ok.1 h6
    cases h7
    obtain ⟨u, s4, h9, h10⟩ := bind_ok.1 h8
    cases h9
    cases pure_ok.1 h10
    obtain ⟨fs, q, hm, hf⟩ := hn p _ b s2 hs h5
    have hdf : df = "$caller(".toList ++ callArgs ks ++ ")".toList := by
      cases ks with
      | nil => cases h3
      | cons k ks =>
        cases k with
        | elem => cases h3; rfl
        | _ => cases h3
    subst hdf
    refine ⟨fs, ?_, ⟨hm.inDef, hm.child, congrArg (· + 1) hm.calls⟩, hf⟩
    simp only [hm.calls]
    exact .call ha hd q
  | forD =>
    have hn := hn (by simp) (by simp) (by simp)
    exact (hn p).wrap fun b fs q => .forD ha hd q
  | withD =>
    have hn := hn (by simp) (by simp) (by simp)
    refine (hn p).bindLift fun b fs a q hx => ?_
    have := NodeC.withD (tag := tag) (l := l) (l' := 0) ha hd q
    change withAssignments (attr as "vars") = _ at hx
    rw [hx] at this
    exact this
  | switchD =>
    have hn := hn (by simp) (by simp) (by simp)
    exact (hn p).bindLift fun b fs a q hx => .switchD ha hd q hx
  | caseD =>
    have hn := hn (by simp) (by simp) (by simp)
    exact (hn p).wrap fun b fs q => .caseD ha hd q
  | ifD =>
    have hn := hn (by simp) (by simp) (by simp)
    exact (hn p).wrap fun b fs q => .ifD ha hd q
  | elseD =>
    have hn := hn (by simp) (by simp) (by simp)
    exact .lift fun _ _ => (hn p).wrap fun b fs q => .elseD ha hd q
  | nop =>
    have hn := hn (by simp) (by simp) (by simp)
    exact (hn p).mono fun b fs q => .nop ha hd q

/-- An ordinary element, given its content. -/
theorem gives_xml (c : CEnv) (p : Place) (tag t : Str) (as : Dict Str) (l ln : Nat) (ks : List DNode)
    (kids : CM (List Ir))
    (hs : script c.opts t = true → Gives kids p p fun ys fs => fs = [] ∧ ∃ a xs b, ys = a ++ xs ++ b ∧
      ScriptC c.py ks xs ∧ MarkC c "/*<![CDATA[*/" a ∧ MarkC c "/*]]>*/" b)
    (hk : script c.opts t = false → (attr as "py:content").isEmpty = true →
      Gives kids p (afterAll c.opts p ks) (KidsC c p true t ks))
    (ha : auto c.opts t as = false) (hd : dirOf t = none) :
    Gives (compileXml c t (plainAttrs c.opts t as) ln ks.isEmpty kids) p (after c.opts p (.elem t as l ks))
      (NodeC c p tag (.elem t as l ks)) := by
  have hafter : after c.opts p (.elem t as l ks) =
      if ownContent c.opts t as then p else afterAll c.opts p ks := by
    simp only [after]
    rw [if_neg (by simp [ha]), hd]
  have hc : attr (plainAttrs c.opts t as) "py:content" = attr as "py:content" :=
    attr_plain _ _ _ _ (by decide +kernel)
  unfold compileXml
  refine .lift fun as' has => ?_
  have hA := attrs_rel has
  change AttrsC c (keepTag (plainAttrs c.opts t as)) _ _ at hA
  have hD := dyn_rel c (keepTag (plainAttrs c.opts t as)) (plainAttrs c.opts t as)
  unfold compileBody
  change Gives (CM.bind (if (attr (plainAttrs c.opts t as) "py:content").isEmpty = true then _ else _) _) _ _ _
  split
  · next he =>
    rw [hc] at he
    split
    · next hi =>
      have hks : ks = [] := List.isEmpty_iff.1 hi
      subst hks
      have : after c.opts p (.elem t as l []) = p := by rw [hafter]; simp [afterAll]
      rw [this]
      refine .pure ?_
      rw [emptyEnd_eq]
      exact .empty ha hd hA hD (hc ▸ he)
    · next hi =>
      rw [Bool.not_eq_true] at hi
      cases hsc : script c.opts t with
      | true =>
        have : after c.opts p (.elem t as l ks) = p := by
          rw [hafter]; unfold ownContent; rw [hsc]; simp
        rw [this]
        rw [bind_assoc]
        refine (hs hsc).wrap fun b fs => ?_
        rintro ⟨rfl, a, xs, b, rfl, h1, h2, h3⟩
        exact .script ha hd hA hD (hc ▸ he) hi hsc h1 h2 h3 (end_rel _ _ _)
      | false =>
        have : after c.opts p (.elem t as l ks) = afterAll c.opts p ks := by
          rw [hafter]; unfold ownContent; rw [hsc, he]; rfl
        rw [this]
        rw [bind_assoc]
        refine (hk hsc he).wrap fun b fs h => ?_
        exact .elem ha hd hA hD (hc ▸ he) hi hsc h (end_rel _ _ _)
  · next he =>
    rw [hc] at he
    have : after c.opts p (.elem t as l ks) = p := by
      rw [hafter]; unfold ownContent; rw [Bool.not_eq_true] at he; rw [he]; rfl
    rw [this]
    rw [Bool.not_eq_true] at he
    exact .pure (.content ha hd hA hD (hc ▸ he))

theorem splitlinesAux_cur (s : Str) : ∀ cur : Str, cur ≠ [] → splitlinesAux false cur s ≠ [] := by
  induction s with
  | nil => intro cur h; cases cur <;> simp_all [splitlinesAux]
  | cons c s ih =>
    intro cur h
    unfold splitlinesAux
    rw [Bool.and_false, if_neg Bool.false_ne_true]
    split
    · simp
    · exact ih _ (by simp)

theorem splitlines_ne {s : Str} (h : s ≠ []) : splitlines s ≠ [] := by
  cases s with
  | nil => exact absurd rfl h
  | cons c s =>
    unfold splitlines splitlinesAux
    rw [Bool.and_false, if_neg Bool.false_ne_true]
    split
    · simp
    · exact splitlinesAux_cur _ _ (by simp)

theorem dedentLines_ne {pre : Str} {ls rs : List Str} (h : dedentLines pre ls = .ok rs) (hl : ls ≠ []) : rs ≠ [] := by
  cases ls with
  | nil => exact absurd rfl hl
  | cons l ls =>
    unfold dedentLines at h
    split at h
    · split at h
      · cases h; simp
      · cases h
    · cases h

/-- A block of Python that is not for the module has lines. -/
theorem pythonNode_lines {d : Str} {q : Bool × List Str} (h : pythonNode (strip d) = .ok q) (hq : q.1 = false) :
    q.2 ≠ [] := by
  have hlast := Doms.strip_last d
  revert h hlast
  generalize strip d = t
  intro h hlast
  unfold pythonNode at h
  split at h
  · cases h
  · next c t =>
    split at h
    · cases hn : normalizePy t with
      | error e => rw [hn] at h; cases h
      | ok ls => rw [hn] at h; cases h; cases hq
    · cases hn : normalizePy (c :: t) with
      | error e => rw [hn] at h; cases h
      | ok ls =>
        rw [hn] at h
        cases h
        show ls ≠ []
        unfold normalizePy at hn
        simp only at hn
        have hne : (if ['#', '\n'].isPrefixOf (c :: t) then (c :: t).drop 2 else c :: t) ≠ [] := by
          split
          · next hpre =>
            intro h0
            rw [List.isPrefixOf_iff_prefix] at hpre
            obtain ⟨r, hr⟩ := hpre
            rw [← hr] at h0 hlast
            have : r = [] := h0
            subst this
            exact absurd (hlast '\n' rfl) (by decide)
          · simp
        revert hne hn
        generalize (if ['#', '\n'].isPrefixOf (c :: t) then (c :: t).drop 2 else c :: t) = u
        intro hn hne
        split at hn
        · next hs => exact absurd hs (splitlines_ne hne)
        · exact dedentLines_ne hn (by simp)

mutual
theorem gives_node (c : CEnv) (ctx : Ctx) (p : Place) (tag : Str) (hp : ∀ q, ctx.parent = some q → q = tag)
    (x : DNode) (sw : Sw) (prev : Str) (hx : (placed c.opts sw prev x).isSome = true) :
    Gives (compileNode c ctx x) p (after c.opts p x) (NodeC c p tag x) := by
  cases x with
  | comment d ln =>
    simp only [compileNode, after]
    refine .annotate _ (.pure ?_) fun b fs h => h.anno _
    unfold compileComment
    split
    · next h => exact .hidden h
    · next h => rw [Bool.not_eq_true] at h; exact .comment h
  | text d e ln =>
    simp only [compileNode, after]
    refine (gives_text c p _ tag d ln hp).mono ?_
    rintro ys fs ⟨rfl, h⟩
    exact .text h
  | cdata d ln =>
    simp only [compileNode, after]
    refine (gives_text c p _ tag d ln hp).mono ?_
    rintro ys fs ⟨rfl, h⟩
    exact .cdata h
  | pi tg d ln =>
    simp only [compileNode, after]
    refine .annotate _ (.lift fun q hq => ?_) fun b fs h => h.anno _
    have hl : pyLines (strip d) = q := by unfold pyLines; rw [hq]
    split
    · next h =>
      intro s ys s' hs he
      obtain ⟨u, s1, h1, h2⟩ := bind_ok.1 he
      cases h1
      cases pure_ok.1 h2
      exact ⟨[], .module (hl ▸ h), ⟨hs.inDef, hs.child, hs.calls⟩, rfl⟩
    · next h =>
      rw [Bool.not_eq_true] at h
      refine .pure ?_
      have hn := pythonNode_lines hq h
      subst hl
      exact .pi h hn
  | elem t as ln kids =>
    simp only [compileNode]
    refine .lift fun a hauto => ?_
    obtain ⟨h1, h2, h3⟩ := autoblock_plain hauto
    cases ha : a.1 with
    | true =>
      rw [ha] at h1
      simp only [if_true]
      have hk : (placedAll c.opts .no [] kids).isSome = true := by
        unfold placed at hx
        rw [if_pos h1.symm] at hx
        split at hx
        · next h => rw [Bool.and_eq_true] at h; exact h.2
        · cases hx
      have hafter : after c.opts p (.elem t as ln kids) = afterAll c.opts p kids := by
        simp only [after]; rw [if_pos h1.symm]
      rw [hafter]
      refine .annotate _ ?_ fun b fs h => h.anno _
      refine (gives_block c p t kids _ (.annotate _
        (gives_kids c false (some t) _ [] p t (by rintro _ ⟨⟩; rfl) kids .no [] hk) fun b fs h => h.anno _)).mono ?_
      rintro ys fs ⟨b, gs, hs, rfl, h4, h5⟩
      exact .auto h1.symm h4 h5
    | false =>
      rw [ha] at h1
      simp only [Bool.false_eq_true, if_false]
      rw [h2 ha]
      cases hd : dirOf t with
      | none =>
        have hpl : (!"py:".toList.isPrefixOf t && (ownContent c.opts t as || (placedAll c.opts .no [] kids).isSome)) = true := by
          unfold placed at hx
          rw [if_neg (by rw [← h1]; simp), hd] at hx
          simp only at hx
          split at hx
          · next h => exact h
          · cases hx
        rw [Bool.and_eq_true] at hpl
        rw [kindOf_none hpl.1]
        refine .annotate _ ?_ fun b fs h => h.anno _
        refine gives_xml c p tag t as ln ln kids _ ?_ ?_ h1.symm hd
        · intro hs
          rw [if_pos (by rw [script_eq]; exact hs)]
          have ht : cdataTags.contains t = true := by
            rw [← scriptTag_eq]
            unfold script at hs
            rw [Bool.and_eq_true] at hs
            exact hs.2
          refine (gives_script c p t ht kids).wrap ?_
          rintro b fs ⟨rfl, h⟩
          exact ⟨rfl, _, b, _, rfl, h, mark_rel _ _, mark_rel _ _⟩
        · intro hs hc
          rw [if_neg (by rw [script_eq, hs]; simp)]
          have hk : (placedAll c.opts .no [] kids).isSome = true := by
            have := hpl.2
            unfold ownContent at this
            rw [hs, hc] at this
            exact this
          exact gives_kids c true (some t) _ [] p t (by rintro _ ⟨⟩; rfl) kids .no [] hk
      | some d =>
        have hne : kindOf t ≠ .xml := by rw [kindOf_dir hd]; cases d <;> exact fun h => nomatch h
        have hkids : d ≠ .replace → d ≠ .imp → d ≠ .incl →
            ∃ sw' prev', (placedAll c.opts sw' prev' kids).isSome = true := by
          unfold placed at hx
          rw [if_neg (by rw [← h1]; simp), hd] at hx
          intro n1 n2 n3
          cases d <;> simp only at hx
          case replace => exact absurd rfl n1
          case imp => exact absurd rfl n2
          case incl => exact absurd rfl n3
          case nop => exact ⟨_, _, hx⟩
          all_goals
            split at hx
            · next h =>
              first
                | exact ⟨_, _, h⟩
                | (rw [Bool.and_eq_true] at h; exact ⟨_, _, h.2⟩)
            · cases hx
        have := gives_kind c ctx p tag t as ln kids (plainAttrs c.opts t as) (fun k hk => get_plain _ _ _ _ hk)
          (annotate ln (compileKids c false (some t) (Dict.has (plainAttrs c.opts t as) "py:switch".toList) [] kids)) d
          (fun n1 n2 n3 p => by
            obtain ⟨sw', prev', hk⟩ := hkids n1 n2 n3
            exact .annotate _ (gives_kids c false (some t) _ [] p t (by rintro _ ⟨⟩; rfl) kids sw' prev' hk)
              fun b fs h => h.anno _) h1.symm hd
        rw [← kindOf_dir hd] at this
        split
        · next h => exact absurd h hne
        · exact .annotate _ this fun b fs h => h.anno _

theorem gives_kids (c : CEnv) (raw : Bool) (parent : Option Str) (swAttr : Bool) (prev0 : Str) (p : Place) (tag : Str)
    (hp : ∀ q, parent = some q → q = tag)
    (xs : List DNode) (sw : Sw) (prev : Str) (hx : (placedAll c.opts sw prev xs).isSome = true) :
    Gives (compileKids c raw parent swAttr prev0 xs) p (afterAll c.opts p xs) (KidsC c p raw tag xs) := by
  cases xs with
  | nil => simp only [compileKids, afterAll]; exact .pure .nil
  | cons x xs =>
    have hx1 : (placed c.opts sw prev x).isSome = true := by
      unfold placedAll at hx
      cases h : placed c.opts sw prev x with
      | none => rw [h] at hx; cases hx
      | some sw => rfl
    have hx2 : ∃ sw', (placedAll c.opts sw' (tagOf x) xs).isSome = true := by
      unfold placedAll at hx
      cases h : placed c.opts sw prev x with
      | none => rw [h] at hx; cases hx
      | some sw => rw [h] at hx; exact ⟨sw, hx⟩
    obtain ⟨sw', hx2⟩ := hx2
    simp only [afterAll]
    have general : (raw = true → ∀ d l, x ≠ .cdata d l) → ∀ prev1,
        Gives (CM.bind (compileNode c ⟨parent, swAttr, prev0⟩ x) fun ys =>
          CM.bind (compileKids c raw parent swAttr prev1 xs) fun zs => CM.pure (ys ++ zs)) p
          (afterAll c.opts (after c.opts p x) xs) (KidsC c p raw tag (x :: xs)) := by
      intro hr prev1 s ys s' hs he
      obtain ⟨b, s1, h1, h2⟩ := bind_ok.1 he
      obtain ⟨b2, s2, h3, h4⟩ := bind_ok.1 h2
      cases pure_ok.1 h4
      obtain ⟨fs, q, hm, hf⟩ := gives_node c ⟨parent, swAttr, prev0⟩ p tag hp x sw prev hx1 s b s1 hs h1
      obtain ⟨gs, q2, hm2, hf2⟩ := gives_kids c raw parent swAttr prev1 (after c.opts p x) tag hp xs sw' (tagOf x) hx2 s1 b2 _ hm h3
      exact ⟨fs ++ gs, .cons hr q q2, hm2, by rw [update_append, ← hf, ← hf2]⟩
    cases x with
    | cdata d l =>
      simp only [compileKids]
      cases raw with
      | true =>
        simp only [if_true]
        simp only [after]
        rw [pure_bind]
        exact (gives_kids c true parent swAttr [] p tag hp xs sw' _ hx2).wrap fun b fs h => .raw h
      | false =>
        simp only [Bool.false_eq_true, if_false]
        have := general (by simp) []
        simp only [compileNode] at this
        exact this
    | _ => simp only [compileKids]; exact general (by simp) _
end

end Kajiki.DocComp
