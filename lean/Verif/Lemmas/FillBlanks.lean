import Verif.Spec.Fill
import Verif.Lemmas.StaticSem

/-! The documents of C66 as texts with blanks. -/

namespace Kajiki.FillDoc
open Kajiki.Spec.Fill
open Kajiki.Spec.DocSem (html void close emptyTag script)
open Kajiki.Spec.Static (reference quoted attrText flags)

/-- A text with blanks. -/
def blanks (f : Char → Str) (ts : List Item) : List (Str ⊕ Str) := ts.map fun
  | .ch c => .inl (f c)
  | .name e => .inr e
  | .expr _ e => .inr e

/-- An attribute with blanks. -/
def attrBlanks (mode : Str) (kv : Str × List Item) : List (Str ⊕ Str) :=
  if html mode && flags.contains kv.1 then [.inl (' ' :: kv.1)]
  else .inl (' ' :: kv.1 ++ "=\"".toList) :: (blanks (fun c => quoted [c]) kv.2 ++ [.inl "\"".toList])

/-- The texts of a script with blanks. -/
def scriptBlanks : Node → List (Str ⊕ Str)
  | .text ts _ => blanks (fun c => [c]) ts
  | .cdata ps _ _ => ps.flatMap fun p => blanks (fun c => [c]) p.1
  | _ => []

mutual
/-- A node with blanks. -/
def nodeBlanks (o : Opts) (mode : Str) : Node → List (Str ⊕ Str)
  | .elem tag attrs _ kids =>
    .inl ('<' :: tag) :: ((sorted attrs).flatMap (attrBlanks mode) ++
      if kids.isEmpty then [.inl (emptyTag mode tag)]
      else .inl ">".toList :: ((if script o tag then
          if mode = "xml".toList then .inl "/*<![CDATA[*/".toList :: (kids.flatMap scriptBlanks ++ [.inl "/*]]>*/".toList])
          else kids.flatMap scriptBlanks
        else nodesBlanks o mode kids) ++ [.inl (if html mode && void tag then [] else close tag)]))
  | .text ts _ => blanks reference ts
  | .cdata ps _ _ => .inl "<![CDATA[".toList :: ((ps.flatMap fun p => blanks (fun c => [c]) p.1) ++ [.inl "]]>".toList])
  | .comment t _ => [.inl (if ['!'].isPrefixOf t then [] else "<!-- ".toList ++ t ++ " -->".toList)]

/-- Several nodes with blanks. -/
def nodesBlanks (o : Opts) (mode : Str) : List Node → List (Str ⊕ Str)
  | [] => []
  | x :: xs => nodeBlanks o mode x ++ nodesBlanks o mode xs
end

/-! ## Filling in -/

section
variable {val : Str → Val}

theorem fillIn_append (a b : List (Str ⊕ Str)) : fillIn val (a ++ b) = fillIn val a ++ fillIn val b :=
  List.flatMap_append

theorem fillIn_inl (t : Str) (a : List (Str ⊕ Str)) : fillIn val (.inl t :: a) = t ++ fillIn val a := rfl

theorem fillIn_nil : fillIn val [] = [] := rfl

theorem fillIn_flatMap {α : Type} (f : α → List (Str ⊕ Str)) (l : List α) :
    fillIn val (l.flatMap f) = l.flatMap fun a => fillIn val (f a) := by
  induction l with
  | nil => rfl
  | cons a l ih => rw [List.flatMap_cons, fillIn_append, ih, List.flatMap_cons]

theorem escapedValue_ordinary {v : Val} (h : ordinary v = true) : escapedValue v = quoted (toStr v) := by
  cases v <;> first | rfl | cases h

theorem plainValue_ordinary {v : Val} (h : ordinary v = true) : plainValue v = toStr v ∧ isNone v = false := by
  cases v <;> first | exact ⟨rfl, rfl⟩ | cases h

theorem blanks_cons (f : Char → Str) (t : Item) (ts : List Item) : blanks f (t :: ts) = (match t with
  | .ch c => .inl (f c)
  | .name e => .inr e
  | .expr _ e => .inr e) :: blanks f ts := rfl

theorem fill_text (ts : List Item) (h : ∀ e ∈ expressions ts, ordinary (val e) = true) :
    textShown val ts = fillIn val (blanks reference ts) := by
  induction ts with
  | nil => rfl
  | cons t ts ih =>
    unfold textShown fillIn at *
    rw [blanks_cons, List.flatMap_cons, List.flatMap_cons]
    cases t with
    | ch c => rw [ih h]
    | name e => rw [ih fun x hx => h x (List.mem_cons_of_mem _ hx)]; dsimp only; rw [escapedValue_ordinary (h e (List.mem_cons_self ..))]
    | expr ws e => rw [ih fun x hx => h x (List.mem_cons_of_mem _ hx)]; dsimp only; rw [escapedValue_ordinary (h e (List.mem_cons_self ..))]

theorem fill_raw (ts : List Item) (h : ∀ e ∈ expressions ts, ordinary (val e) = true) :
    rawShown val ts = fillIn val (blanks (fun c => [c]) ts) := by
  induction ts with
  | nil => rfl
  | cons t ts ih =>
    unfold rawShown fillIn at *
    rw [blanks_cons, List.flatMap_cons, List.flatMap_cons]
    cases t with
    | ch c => rw [ih h]
    | name e => rw [ih fun x hx => h x (List.mem_cons_of_mem _ hx)]; dsimp only; rw [escapedValue_ordinary (h e (List.mem_cons_self ..))]
    | expr ws e => rw [ih fun x hx => h x (List.mem_cons_of_mem _ hx)]; dsimp only; rw [escapedValue_ordinary (h e (List.mem_cons_self ..))]

theorem quoted_append (a b : Str) : quoted (a ++ b) = quoted a ++ quoted b := List.flatMap_append

theorem fill_value (ts : List Item) (h : ∀ e ∈ expressions ts, ordinary (val e) = true) :
    quoted (attrValue val ts) = fillIn val (blanks (fun c => quoted [c]) ts) := by
  induction ts with
  | nil => rfl
  | cons t ts ih =>
    unfold attrValue fillIn at *
    rw [blanks_cons, List.flatMap_cons, List.flatMap_cons, quoted_append]
    cases t with
    | ch c => rw [ih h]
    | name e => rw [ih fun x hx => h x (List.mem_cons_of_mem _ hx)]; dsimp only; rw [(plainValue_ordinary (h e (List.mem_cons_self ..))).1]
    | expr ws e => rw [ih fun x hx => h x (List.mem_cons_of_mem _ hx)]; dsimp only; rw [(plainValue_ordinary (h e (List.mem_cons_self ..))).1]

theorem fill_attr (mode : Str) (kv : Str × List Item) (h : ∀ e ∈ expressions kv.2, ordinary (val e) = true) :
    attrShown val mode kv = fillIn val (attrBlanks mode kv) := by
  have ha : (!kv.2.isEmpty && kv.2.all (absent val)) = false := by
    cases hk : kv.2 with
    | nil => rfl
    | cons t ts =>
      rw [hk] at h
      have : absent val t = false := by
        cases t with
        | ch c => rfl
        | name e => exact (plainValue_ordinary (h e (List.mem_cons_self ..))).2
        | expr ws e => exact (plainValue_ordinary (h e (List.mem_cons_self ..))).2
      rw [List.all_cons, this]
      rfl
  unfold attrShown attrText attrBlanks
  rw [ha, if_neg Bool.false_ne_true]
  dsimp only
  split
  · rw [fillIn_inl, fillIn_nil, List.append_nil]
  · rw [fillIn_inl, fillIn_append, fillIn_inl, fillIn_nil, List.append_nil, fill_value _ h]
    simp only [List.append_assoc]

theorem fill_scriptText (x : Node) (h : ∀ e ∈ x.expressions, ordinary (val e) = true) :
    scriptText val x = fillIn val (scriptBlanks x) := by
  cases x with
  | text ts l => exact fill_raw ts h
  | cdata ps l l' =>
    unfold scriptText scriptBlanks
    rw [fillIn_flatMap]
    refine List.flatMap_congr fun p hp => fill_raw _ fun e he => h e ?_
    rw [Node.expressions]
    exact List.mem_flatMap.2 ⟨p, hp, he⟩
  | _ => rfl

theorem mem_expressionsAll {xs : List Node} {e : Str} : e ∈ expressionsAll xs ↔ ∃ x ∈ xs, e ∈ x.expressions := by
  induction xs with
  | nil => simp [expressionsAll]
  | cons x xs ih => rw [expressionsAll, List.mem_append, ih]; simp

mutual
theorem fill_node (o : Opts) (mode : Str) : ∀ x : Node, (∀ e ∈ x.expressions, ordinary (val e) = true) →
    shown val o mode x = fillIn val (nodeBlanks o mode x)
  | .text ts l, h => by
    unfold shown nodeBlanks
    exact fill_text ts h
  | .comment t l, h => by
    unfold shown nodeBlanks
    exact (List.append_nil _).symm
  | .cdata ps l l', h => by
    unfold shown nodeBlanks
    rw [fillIn_inl, fillIn_append, fillIn_inl, fillIn_nil, List.append_nil, fillIn_flatMap, List.append_assoc]
    congr 2
    refine List.flatMap_congr fun p hp => fill_raw _ fun e he => h e ?_
    rw [Node.expressions]
    exact List.mem_flatMap.2 ⟨p, hp, he⟩
  | .elem t as ln kids, h => by
    rw [Node.expressions] at h
    have ha : (sorted as).flatMap (attrShown val mode) = fillIn val ((sorted as).flatMap (attrBlanks mode)) := by
      rw [fillIn_flatMap]
      refine List.flatMap_congr fun kv hkv => fill_attr mode kv fun e he => h e (List.mem_append_left _ ?_)
      exact List.mem_flatMap.2 ⟨kv, (List.perm_insertionSort (fun a b : Str × List Item => a.1 ≤ b.1) as).mem_iff.1 hkv, he⟩
    have hk : ∀ e ∈ expressionsAll kids, ordinary (val e) = true := fun e he => h e (List.mem_append_right _ he)
    have hs : kids.flatMap (scriptText val) = fillIn val (kids.flatMap scriptBlanks) := by
      rw [fillIn_flatMap]
      exact List.flatMap_congr fun x hx => fill_scriptText x fun e he => hk e (mem_expressionsAll.2 ⟨x, hx, he⟩)
    unfold shown nodeBlanks scriptContent
    rw [fillIn_inl, fillIn_append, ha, fill_nodes o mode kids hk, hs, List.append_assoc]
    congr 2
    split
    · exact (List.append_nil _).symm
    · rw [fillIn_inl, fillIn_append, fillIn_inl, fillIn_nil, List.append_nil, List.append_assoc]
      congr 2
      split
      · split
        · rw [fillIn_inl, fillIn_append, fillIn_inl, fillIn_nil, List.append_nil, List.append_assoc]
        · rfl
      · rfl

theorem fill_nodes (o : Opts) (mode : Str) : ∀ xs : List Node, (∀ e ∈ expressionsAll xs, ordinary (val e) = true) →
    shownAll val o mode xs = fillIn val (nodesBlanks o mode xs)
  | [], _ => by rw [shownAll, nodesBlanks]; rfl
  | x :: xs, h => by
    rw [expressionsAll] at h
    rw [shownAll, nodesBlanks, fillIn_append, fill_node o mode x fun e he => h e (List.mem_append_left _ he),
      fill_nodes o mode xs fun e he => h e (List.mem_append_right _ he)]
end
end

/-! ## The expressions of the blanks -/

theorem blankFor_append (a b : List (Str ⊕ Str)) : blankFor (a ++ b) = blankFor a ++ blankFor b :=
  List.filterMap_append ..

theorem blankFor_inl (t : Str) (a : List (Str ⊕ Str)) : blankFor (.inl t :: a) = blankFor a := rfl

theorem blankFor_flatMap {α : Type} (f : α → List (Str ⊕ Str)) (l : List α) :
    blankFor (l.flatMap f) = l.flatMap fun a => blankFor (f a) := by
  induction l with
  | nil => rfl
  | cons a l ih => rw [List.flatMap_cons, blankFor_append, ih, List.flatMap_cons]

theorem blankFor_text (f : Char → Str) (ts : List Item) : blankFor (blanks f ts) = expressions ts := by
  induction ts with
  | nil => rfl
  | cons t ts ih =>
    rw [blanks_cons]
    unfold blankFor expressions at *
    cases t with
    | ch c => exact ih
    | name e => exact congrArg (e :: ·) ih
    | expr ws e => exact congrArg (e :: ·) ih

theorem blankFor_attr {mode : Str} (hm : html mode = false) (kv : Str × List Item) :
    blankFor (attrBlanks mode kv) = expressions kv.2 := by
  unfold attrBlanks
  rw [hm, if_neg (by simp), blankFor_inl, blankFor_append, blankFor_text]
  exact List.append_nil _

theorem blankFor_script (x : Node) (h : isText x = true) : blankFor (scriptBlanks x) = x.expressions := by
  cases x with
  | text ts l => exact blankFor_text ..
  | cdata ps l l' =>
    unfold scriptBlanks
    rw [blankFor_flatMap, Node.expressions]
    exact List.flatMap_congr fun p _ => blankFor_text ..
  | _ => cases h

theorem expressionsAll_eq (xs : List Node) : expressionsAll xs = xs.flatMap Node.expressions := by
  induction xs with
  | nil => rfl
  | cons x xs ih => rw [expressionsAll, ih, List.flatMap_cons]

mutual
theorem blankFor_node (py : PyCompile) (o : Opts) {mode : Str} (hm : html mode = false) : ∀ x : Node, Plain py o x →
    (blankFor (nodeBlanks o mode x)).Perm x.expressions
  | .text ts l, _ => by unfold nodeBlanks; rw [blankFor_text]; exact .refl _
  | .comment t l, _ => by unfold nodeBlanks; exact .refl _
  | .cdata ps l l', _ => by
    unfold nodeBlanks
    rw [blankFor_inl, blankFor_append, blankFor_flatMap, Node.expressions]
    refine .of_eq ((List.append_nil _).trans ?_)
    exact List.flatMap_congr fun p _ => blankFor_text ..
  | .elem t as ln kids, h => by
    obtain ⟨-, -, -, -, h5, -, h7⟩ := h
    unfold nodeBlanks
    rw [blankFor_inl, blankFor_append, blankFor_flatMap, Node.expressions]
    refine .append ?_ ?_
    · rw [List.flatMap_congr (g := fun kv => expressions kv.2) fun kv _ => blankFor_attr hm kv]
      exact (List.perm_insertionSort (fun a b : Str × List Item => a.1 ≤ b.1) as).flatMap_right _
    · cases kids with
      | nil => exact .refl _
      | cons k ks =>
        rw [if_neg (by simp), blankFor_inl, blankFor_append]
        refine (List.Perm.of_eq (List.append_nil _)).trans ?_
        split
        · next hs =>
          have : ∀ xs : List Node, (∀ x ∈ xs, isText x = true) → blankFor (xs.flatMap scriptBlanks) = expressionsAll xs := by
            intro xs hx
            rw [blankFor_flatMap, expressionsAll_eq]
            exact List.flatMap_congr fun x hx' => blankFor_script x (hx x hx')
          split
          · rw [blankFor_inl, blankFor_append, this _ (h5 hs)]
            exact .of_eq (List.append_nil _)
          · rw [this _ (h5 hs)]
        · exact blankFor_nodes py o hm _ h7

theorem blankFor_nodes (py : PyCompile) (o : Opts) {mode : Str} (hm : html mode = false) : ∀ xs : List Node,
    PlainAll py o xs → (blankFor (nodesBlanks o mode xs)).Perm (expressionsAll xs)
  | [], _ => by rw [nodesBlanks, expressionsAll]; exact .refl _
  | x :: xs, h => by
    rw [nodesBlanks, expressionsAll, blankFor_append]
    exact .append (blankFor_node py o hm x h.1) (blankFor_nodes py o hm xs h.2)
end

end Kajiki.FillDoc
