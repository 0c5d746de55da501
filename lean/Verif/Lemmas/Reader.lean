import Verif.Spec.Reader

/-! Reading what a document with expressions shows. -/

namespace Kajiki.Reads
open Kajiki.Spec.Reader Kajiki.Spec.Fill
open Kajiki.Spec.Static (reference quoted attrText)
open Kajiki.Spec.DocSem (script html void close emptyTag)

/-! ## Merging -/

theorem joined_congr (x : List Tree) {a b : List Tree} (h : joined a = joined b) : joined (x ++ a) = joined (x ++ b) := by
  induction x with
  | nil => exact h
  | cons y x ih => cases y <;> simp only [List.cons_append, joined, ih]

/-- The same whatever comes next. -/
def Same (a b : List Tree) : Prop := ∀ z, joined (a ++ z) = joined (b ++ z)

theorem Same.refl (a : List Tree) : Same a a := fun _ => rfl

theorem Same.append {a b c d : List Tree} (h : Same a b) (h' : Same c d) : Same (a ++ c) (b ++ d) := by
  intro z
  rw [List.append_assoc, List.append_assoc, h, joined_congr b (h' z)]

theorem Same.joined_eq {a b : List Tree} (h : Same a b) : joined a = joined b := by simpa using h []

/-- The characters of a text. -/
def chars (s : Str) : List Tree := s.map fun c => .text [c]

theorem joined_text (t u : Str) (z : List Tree) : joined (.text t :: .text u :: z) = joined (.text (t ++ u) :: z) := by
  simp only [joined]
  rcases joined z with _ | ⟨x, ys⟩
  · by_cases hu : u = [] <;> by_cases ht : t = [] <;> simp [hu, ht]
  · cases x <;> by_cases hu : u = [] <;> by_cases ht : t = [] <;> simp [hu, ht]

theorem same_chars (s : Str) : Same (chars s) [.text s] := by
  intro z
  induction s with
  | nil =>
    show joined z = joined (.text [] :: z)
    simp only [joined]
    split
    · next h => rw [h]; rfl
    · simp
  | cons c s ih =>
    show joined (.text [c] :: (chars s ++ z)) = joined (.text (c :: s) :: z)
    rw [show Tree.text [c] :: (chars s ++ z) = [Tree.text [c]] ++ (chars s ++ z) from rfl, joined_congr _ ih]
    exact joined_text [c] s z

theorem same_text (s t : Str) : Same [.text s, .text t] [.text (s ++ t)] := fun z => joined_text s t z

/-! ## Reading one thing after the other -/

theorem feed_append (s : State) (a b : Str) : s.feed (a ++ b) = (s.feed a).bind fun s' => s'.feed b := by
  induction a generalizing s with
  | nil => rfl
  | cons c a ih =>
    simp only [List.cons_append, State.feed]
    cases s.step c with
    | none => rfl
    | some s' => simpa using ih s'

theorem feed_then {s s' s'' : State} {a b : Str} (h : s.feed a = some s') (h' : s'.feed b = some s'') :
    s.feed (a ++ b) = some s'' := by
  rw [feed_append, h]
  exact h'

theorem feed_one {s s' : State} {c : Char} (h : s.step c = some s') : s.feed [c] = some s' := by
  simp [State.feed, h]

theorem feed_cons {s s' s'' : State} {c : Char} {b : Str} (h : s.step c = some s') (h' : s'.feed b = some s'') :
    s.feed (c :: b) = some s'' := feed_then (feed_one h) h'

/-! ## Text -/

variable (h : List Tree) (up : List (Str × List (Str × Str) × List Tree))

theorem read_reference (c : Char) :
    (State.mk .content h up).feed (reference c) = some ⟨.content, .text [c] :: h, up⟩ := by
  unfold reference
  split
  · next h2 => subst h2; rfl
  · next h2 =>
    split
    · next h3 => subst h3; rfl
    · next h3 =>
      split
      · next h4 => subst h4; rfl
      · next h4 =>
        refine feed_one ?_
        simp only [State.step, State.add, h2, h3, if_false]

theorem read_references (s : Str) :
    (State.mk .content h up).feed (s.flatMap reference) = some ⟨.content, (chars s).reverse ++ h, up⟩ := by
  induction s generalizing h with
  | nil => rfl
  | cons c s ih =>
    rw [List.flatMap_cons]
    refine feed_then (read_reference h up c) ((ih _).trans ?_)
    simp [chars]

theorem read_quoted (s : Str) :
    (State.mk .content h up).feed (quoted s) = some ⟨.content, (chars s).reverse ++ h, up⟩ := by
  induction s generalizing h with
  | nil => rfl
  | cons c s ih =>
    have e : quoted (c :: s) = (if c = '"' then "&quot;".toList else reference c) ++ quoted s := rfl
    rw [e]
    refine feed_then (s' := ⟨.content, .text [c] :: h, up⟩) ?_ ((ih _).trans ?_)
    · split
      · next h1 => subst h1; rfl
      · exact read_reference h up c
    · simp [chars]

theorem read_value (v : Val) (hv : noMarkup v = true) :
    (State.mk .content h up).feed (escapedValue v) = some ⟨.content, (chars (plainValue v)).reverse ++ h, up⟩ := by
  cases v <;> first | rfl | exact absurd hv Bool.false_ne_true | exact read_quoted h up _

variable (val : Str → Val)

/-- The values of a text are not markup. -/
def Safe (ts : List Item) : Prop := ∀ e ∈ expressions ts, noMarkup (val e) = true

theorem read_text (ts : List Item) (hs : Safe val ts) :
    (State.mk .content h up).feed (textShown val ts) = some ⟨.content, (chars (textOf val ts)).reverse ++ h, up⟩ := by
  induction ts generalizing h with
  | nil => rfl
  | cons t ts ih =>
    have hs' : Safe val ts := fun e he => hs e (by
      unfold expressions at he ⊢
      rw [List.filterMap_cons]
      split
      · exact he
      · exact List.mem_cons_of_mem _ he)
    unfold textShown
    rw [List.flatMap_cons]
    have key : ∀ (a b : Str), (State.mk .content h up).feed a = some ⟨.content, (chars b).reverse ++ h, up⟩ →
        textOf val (t :: ts) = b ++ textOf val ts →
        (State.mk .content h up).feed (a ++ textShown val ts) =
          some ⟨.content, (chars (textOf val (t :: ts))).reverse ++ h, up⟩ := by
      intro a b h1 h2
      refine feed_then h1 ((ih _ hs').trans ?_)
      rw [h2]
      simp [chars]
    cases t with
    | ch c => exact key _ [c] (read_reference h up c) rfl
    | name e => exact key _ _ (read_value h up (val e) (hs e (by simp [expressions, Item.expression]))) rfl
    | expr ws e => exact key _ _ (read_value h up (val e) (hs e (by simp [expressions, Item.expression]))) rfl

/-! ## Tags -/

theorem read_name_more (a t : Str) (ht : ∀ c ∈ t, nameChar c = true) :
    (State.mk (.name a) h up).feed t = some ⟨.name (a ++ t), h, up⟩ := by
  induction t generalizing a with
  | nil => simp [State.feed]
  | cons c t ih =>
    refine feed_cons (s' := ⟨.name (a ++ [c]), h, up⟩) ?_ ((ih _ fun x hx => ht x (List.mem_cons_of_mem _ hx)).trans ?_)
    · simp [State.step, ht c (List.mem_cons_self ..)]
    · simp

theorem name_first {c : Char} (hc : nameChar c = true) : c ≠ '/' ∧ c ≠ '!' ∧ c ≠ '>' ∧ c ≠ ' ' ∧ c ≠ '=' := by
  refine ⟨?_, ?_, ?_, ?_, ?_⟩ <;> (rintro rfl; revert hc; decide +kernel)

theorem read_name (t : Str) (ht : Name t) :
    (State.mk .content h up).feed ('<' :: t) = some ⟨.name t, h, up⟩ := by
  obtain ⟨hne, hall⟩ := ht
  cases t with
  | nil => exact absurd rfl hne
  | cons c t =>
    have hc := hall c (List.mem_cons_self ..)
    obtain ⟨h1, h2, -⟩ := name_first hc
    refine feed_cons (s' := ⟨.lt, h, up⟩) (by simp [State.step]) (feed_cons (s' := ⟨.name [c], h, up⟩) ?_ ?_)
    · simp [State.step, h1, h2, hc]
    · exact read_name_more h up [c] t fun x hx => hall x (List.mem_cons_of_mem _ hx)

/-- After the name or an attribute. -/
def AtTag (m : Mode) (t : Str) (as : List (Str × Str)) : Prop := (m = .name t ∧ as = []) ∨ m = .tag t as

theorem AtTag.step {m : Mode} {t : Str} {as : List (Str × Str)} (hm : AtTag m t as) {c : Char} (hc : nameChar c = false) :
    (State.mk m h up).step c = (State.mk m h up).tagEnd t as c := by
  rcases hm with ⟨rfl, rfl⟩ | rfl
  · simp [State.step, hc]
  · rfl

theorem AtTag.space {m : Mode} {t : Str} {as : List (Str × Str)} (hm : AtTag m t as) :
    (State.mk m h up).step ' ' = some ⟨.space t as, h, up⟩ := by
  rw [hm.step h up (by decide +kernel)]
  rfl

theorem AtTag.gt {m : Mode} {t : Str} {as : List (Str × Str)} (hm : AtTag m t as) (hn : (as.map (·.1)).Nodup) :
    (State.mk m h up).step '>' = some ⟨.content, [], (t, as, h) :: up⟩ := by
  rw [hm.step h up (by decide +kernel)]
  simp [State.tagEnd, Spec.Reader.space, hn]

theorem AtTag.empty {m : Mode} {t : Str} {as : List (Str × Str)} (hm : AtTag m t as) (hn : (as.map (·.1)).Nodup) :
    (State.mk m h up).feed "/>".toList = some ⟨.content, .elem t as [] :: h, up⟩ := by
  rw [show "/>".toList = ['/', '>'] from rfl]
  refine feed_cons (s' := ⟨.slash t as, h, up⟩) ?_ (feed_one ?_)
  · rw [hm.step h up (by decide +kernel)]
    rfl
  · simp [State.step, State.add, hn]

theorem read_attr_more (t : Str) (as : List (Str × Str)) (a n : Str) (hn : ∀ c ∈ n, nameChar c = true) :
    (State.mk (.attr t as a) h up).feed n = some ⟨.attr t as (a ++ n), h, up⟩ := by
  induction n generalizing a with
  | nil => simp [State.feed]
  | cons c n ih =>
    refine feed_cons (s' := ⟨.attr t as (a ++ [c]), h, up⟩) ?_ ((ih _ fun x hx => hn x (List.mem_cons_of_mem _ hx)).trans ?_)
    · simp [State.step, hn c (List.mem_cons_self ..)]
    · simp

theorem read_attr_value (t : Str) (as : List (Str × Str)) (n a v : Str) :
    (State.mk (.value t as n a) h up).feed (quoted v) = some ⟨.value t as n (a ++ normal v), h, up⟩ := by
  induction v generalizing a with
  | nil => simp [quoted, State.feed, normal]
  | cons c v ih =>
    have e : quoted (c :: v) = (if c = '"' then "&quot;".toList else reference c) ++ quoted v := rfl
    rw [e]
    refine feed_then (s' := ⟨.value t as n (a ++ [if space c then ' ' else c]), h, up⟩) ?_ ((ih _).trans ?_)
    · split
      · next h1 => subst h1; rfl
      · next h1 =>
        unfold reference
        split
        · next h2 => subst h2; rfl
        · next h2 =>
          split
          · next h3 => subst h3; rfl
          · next h3 =>
            split
            · next h4 => subst h4; rfl
            · next h4 =>
              refine feed_one ?_
              simp only [State.step, h1, h2, h3, if_false]
    · simp [normal]

theorem read_attr {m : Mode} {t : Str} {as : List (Str × Str)} (hm : AtTag m t as) (n v : Str) (hn : Name n) :
    (State.mk m h up).feed (attrText "xml".toList (n, v)) = some ⟨.tag t (as ++ [(n, normal v)]), h, up⟩ := by
  obtain ⟨hne, hall⟩ := hn
  have e : attrText "xml".toList (n, v) = ' ' :: n ++ ['=', '"'] ++ quoted v ++ ['"'] := by
    unfold attrText
    have : html "xml".toList = false := by decide +kernel
    rw [if_neg]
    · rfl
    · rw [this]
      simp
  rw [e]
  cases n with
  | nil => exact absurd rfl hne
  | cons c n =>
    have hc := hall c (List.mem_cons_self ..)
    refine feed_then (feed_then (feed_then (s' := ⟨.attr t as (c :: n), h, up⟩) ?_
      (s'' := ⟨.value t as (c :: n) [], h, up⟩) ?_) (read_attr_value h up t as (c :: n) [] v)) (feed_one ?_)
    · refine feed_cons (hm.space h up) (feed_cons (s' := ⟨.attr t as [c], h, up⟩) ?_
        (read_attr_more h up t as [c] n fun x hx => hall x (List.mem_cons_of_mem _ hx)))
      simp [State.step, hc]
    · refine feed_cons (s' := ⟨.eq t as (c :: n), h, up⟩) ?_ (feed_one ?_)
      · have : nameChar '=' = false := by decide +kernel
        simp [State.step, this]
      · simp [State.step]
    · simp [State.step]

theorem read_attrs {m : Mode} {t : Str} {as : List (Str × Str)} (hm : AtTag m t as) (kvs : List (Str × List Item))
    (hn : ∀ kv ∈ kvs, Name kv.1) :
    ∃ m', AtTag m' t (as ++ kvs.filterMap (attrOf val)) ∧
      (State.mk m h up).feed (kvs.flatMap (attrShown val "xml".toList)) = some ⟨m', h, up⟩ := by
  induction kvs generalizing m as with
  | nil => exact ⟨m, by simpa using hm, rfl⟩
  | cons kv kvs ih =>
    have hn' := fun x hx => hn x (List.mem_cons_of_mem _ hx)
    rw [List.flatMap_cons, List.filterMap_cons]
    by_cases hab : (!kv.2.isEmpty && kv.2.all (absent val)) = true
    · have e1 : attrShown val "xml".toList kv = [] := by unfold attrShown; rw [if_pos hab]
      have e2 : attrOf val kv = none := by unfold attrOf; rw [if_pos hab]
      rw [e1, e2]
      exact ih hm hn'
    · have e1 : attrShown val "xml".toList kv = attrText "xml".toList (kv.1, attrValue val kv.2) := by
        unfold attrShown; rw [if_neg hab]
      have e2 : attrOf val kv = some (kv.1, normal (attrValue val kv.2)) := by unfold attrOf; rw [if_neg hab]
      rw [e1, e2]
      obtain ⟨m', h1, h2⟩ := ih (as := as ++ [(kv.1, normal (attrValue val kv.2))]) (.inr rfl) hn'
      exact ⟨m', by simpa using h1, feed_then (read_attr h up hm _ _ (hn kv (List.mem_cons_self ..))) h2⟩

theorem read_close_more (a t : Str) (ht : ∀ c ∈ t, nameChar c = true) :
    (State.mk (.close a) h up).feed t = some ⟨.close (a ++ t), h, up⟩ := by
  induction t generalizing a with
  | nil => simp [State.feed]
  | cons c t ih =>
    refine feed_cons (s' := ⟨.close (a ++ [c]), h, up⟩) ?_ ((ih _ fun x hx => ht x (List.mem_cons_of_mem _ hx)).trans ?_)
    · simp [State.step, ht c (List.mem_cons_self ..)]
    · simp

theorem read_close (t : Str) (as : List (Str × Str)) (before : List Tree) (ht : Name t) :
    (State.mk .content h ((t, as, before) :: up)).feed (close t) =
      some ⟨.content, .elem t as (joined h.reverse) :: before, up⟩ := by
  unfold close
  rw [show "</".toList = ['<', '/'] from rfl, show ">".toList = ['>'] from rfl]
  refine feed_then (feed_then (s' := ⟨.close [], h, (t, as, before) :: up⟩) ?_ (read_close_more h _ [] t ht.2)) (feed_one ?_)
  · refine feed_cons (s' := ⟨.lt, h, (t, as, before) :: up⟩) (by simp [State.step]) (feed_one (by simp [State.step]))
  · have : nameChar '>' = false := by decide +kernel
    simp [State.step, this]

/-! ## Comments, CDATA sections and DOCTYPE -/

theorem read_comment_more (a t : Str) (ht : ¬ "--".toList <:+: a ++ t) :
    (State.mk (.comment a) h up).feed t = some ⟨.comment (a ++ t), h, up⟩ := by
  induction t generalizing a with
  | nil => simp [State.feed]
  | cons c t ih =>
    refine feed_cons (s' := ⟨.comment (a ++ [c]), h, up⟩) ?_ ((ih (a ++ [c]) (by simpa using ht)).trans (by simp))
    have : "--".toList.isSuffixOf a = false := by
      rw [Bool.eq_false_iff, ne_eq, List.isSuffixOf_iff_suffix]
      exact fun hs => ht (hs.isInfix.trans (List.prefix_append _ _).isInfix)
    simp only [State.step, this, Bool.false_eq_true, if_false]

theorem infix_cons {p : Str} {a : Char} {x : Str} (ha : a ∉ p) (hp : p ≠ []) (hx : ¬ p <:+: x) : ¬ p <:+: a :: x := by
  rw [List.infix_cons_iff]
  rintro (hpre | hin)
  · cases p with
    | nil => exact hp rfl
    | cons b p =>
      rw [List.cons_prefix_cons] at hpre
      exact ha (hpre.1 ▸ List.mem_cons_self ..)
  · exact hx hin

theorem infix_concat {p : Str} {a : Char} {x : Str} (ha : a ∉ p) (hp : p ≠ []) (hx : ¬ p <:+: x) : ¬ p <:+: x ++ [a] := by
  have := infix_cons (p := p.reverse) (a := a) (x := x.reverse) (by simpa using ha) (by simpa using hp)
    (by rwa [List.reverse_infix])
  rwa [← List.reverse_infix, List.reverse_append]

theorem read_comment (t : Str) (ht : ¬ "--".toList <:+: t) :
    (State.mk .content h up).feed ("<!-- ".toList ++ t ++ " -->".toList) =
      some ⟨.content, .comment (' ' :: t ++ [' ']) :: h, up⟩ := by
  have h1 : ¬ "--".toList <:+: ' ' :: t := infix_cons (by decide +kernel) (by decide +kernel) ht
  have h2 : ¬ "--".toList <:+: ' ' :: t ++ [' '] := infix_concat (by decide +kernel) (by decide +kernel) h1
  have h3 : ¬ "--".toList <:+: ' ' :: t ++ [' ', '-'] := by
    intro hi
    have e : ' ' :: t ++ [' ', '-'] = (' ' :: t ++ [' ']) ++ ['-'] := by simp
    rw [e, List.infix_concat_iff] at hi
    rcases hi with hi | hi
    · have e2 : "--".toList = ['-'] ++ ['-'] := rfl
      have := hi
      rw [e2] at this
      have := (List.suffix_append_inj_of_length_eq rfl).1 this
      have := this.1
      rw [List.singleton_suffix_iff_getLast?_eq_some, List.getLast?_concat] at this
      exact absurd this (by decide +kernel)
    · exact h2 hi
  have e : "<!-- ".toList ++ t ++ " -->".toList = "<!--".toList ++ ((' ' :: t ++ [' ', '-']) ++ "->".toList) := by
    simp
  rw [e]
  refine feed_then (s' := ⟨.comment [], h, up⟩) rfl (feed_then (read_comment_more h up [] _ (by simpa using h3)) ?_)
  rw [show "->".toList = ['-', '>'] from rfl, List.nil_append]
  generalize hX : ' ' :: t = X
  have h4 : ¬ "--".toList <:+: X ++ [' ', '-'] := hX ▸ h3
  refine feed_cons (s' := ⟨.comment (X ++ [' ', '-', '-']), h, up⟩) ?_ (feed_one ?_)
  · have : "--".toList.isSuffixOf (X ++ [' ', '-']) = false := by
      rw [Bool.eq_false_iff, ne_eq, List.isSuffixOf_iff_suffix]
      exact fun hs => h4 hs.isInfix
    simp only [State.step, this, Bool.false_eq_true, if_false]
    simp
  · have : "--".toList.isSuffixOf (X ++ [' ', '-', '-']) = true := by
      rw [List.isSuffixOf_iff_suffix]
      exact ⟨X ++ [' '], by simp⟩
    simp only [State.step, this, if_true, State.add]
    have e : X ++ [' ', '-', '-'] = (X ++ [' ']) ++ ['-', '-'] := by simp
    rw [e, List.take_left' (by simp)]

theorem read_cdata_more (a t : Str) (ht : ¬ "]]>".toList <:+: a ++ t) :
    (State.mk (.cdata a) h up).feed t = some ⟨.cdata (a ++ t), h, up⟩ := by
  induction t generalizing a with
  | nil => simp [State.feed]
  | cons c t ih =>
    refine feed_cons (s' := ⟨.cdata (a ++ [c]), h, up⟩) ?_ ((ih (a ++ [c]) (by simpa using ht)).trans (by simp))
    unfold State.step
    dsimp only
    rw [if_neg]
    rintro ⟨rfl, hs⟩
    refine ht ?_
    obtain ⟨b, rfl⟩ := hs
    exact ⟨b, t, by simp⟩

theorem read_cdata (t : Str) (ht : ¬ "]]>".toList <:+: t) :
    (State.mk .content h up).feed ("<![CDATA[".toList ++ t ++ "]]>".toList) =
      some ⟨.content, .text t :: h, up⟩ := by
  rw [List.append_assoc]
  refine feed_then (s' := ⟨.cdata [], h, up⟩) rfl (feed_then (read_cdata_more h up [] t ht) ?_)
  rw [show "]]>".toList = [']', ']', '>'] from rfl, List.nil_append]
  refine feed_cons (s' := ⟨.cdata (t ++ [']']), h, up⟩) (by simp [State.step])
    (feed_cons (s' := ⟨.cdata (t ++ [']', ']']), h, up⟩) (by simp [State.step]) (feed_one ?_))
  unfold State.step
  dsimp only
  rw [if_pos ⟨rfl, t, rfl⟩]
  simp [State.add]

theorem read_doctype (s : Str) (hs : Doctype s) : (State.mk .content h up).feed s = some ⟨.content, h, up⟩ := by
  obtain ⟨r, rfl, hr⟩ := hs
  rw [List.append_assoc]
  refine feed_then (s' := ⟨.doctype, h, up⟩) rfl (feed_then (s' := ⟨.doctype, h, up⟩) ?_ rfl)
  induction r with
  | nil => rfl
  | cons c r ih =>
    simp only [List.mem_cons, not_or] at hr
    refine feed_cons (s' := ⟨.doctype, h, up⟩) ?_ (ih hr.2)
    simp [State.step, Ne.symm hr.1]

/-! ## Documents -/

theorem xml_html : html "xml".toList = false := by decide +kernel

theorem read_script_text {x : Str} (hc : ¬ "]]>".toList <:+: x) :
    ∃ k, (State.mk .content h up).feed ("/*<![CDATA[*/".toList ++ x ++ "/*]]>*/".toList) = some ⟨.content, k.reverse ++ h, up⟩ ∧
      Same k [.text ("/**/".toList ++ x ++ "/**/".toList)] := by
  have h1 : ¬ "]]>".toList <:+: '/' :: x := infix_cons (by decide +kernel) (by decide +kernel) hc
  have h2 : ¬ "]]>".toList <:+: '*' :: '/' :: x := infix_cons (by decide +kernel) (by decide +kernel) h1
  have h3 := infix_concat (a := '/') (by decide +kernel) (by decide +kernel) h2
  have h4 := infix_concat (a := '*') (by decide +kernel) (by decide +kernel) h3
  have e : "/*<![CDATA[*/".toList ++ x ++ "/*]]>*/".toList =
      ['/', '*'] ++ (("<![CDATA[".toList ++ ('*' :: '/' :: x ++ ['/'] ++ ['*']) ++ "]]>".toList) ++ ['*', '/']) := by
    rw [show "/*<![CDATA[*/".toList = ['/', '*'] ++ "<![CDATA[".toList ++ ['*', '/'] from rfl,
      show "/*]]>*/".toList = ['/', '*'] ++ "]]>".toList ++ ['*', '/'] from rfl]
    simp only [List.append_assoc, List.cons_append, List.nil_append]
  refine ⟨[.text ['/'], .text ['*'], .text ('*' :: '/' :: x ++ ['/'] ++ ['*']), .text ['*'], .text ['/']], ?_, ?_⟩
  · rw [e]
    refine feed_then (s' := ⟨.content, [.text ['*'], .text ['/']] ++ h, up⟩) rfl
      (feed_then (read_cdata _ up _ h4) ?_)
    rfl
  · intro z
    show joined (.text ['/'] :: .text ['*'] :: .text ('*' :: '/' :: x ++ ['/'] ++ ['*']) :: .text ['*'] ::
      .text ['/'] :: z) = _
    rw [joined_text, joined_text, joined_text, joined_text]
    simp [show "/**/".toList = ['/', '*', '*', '/'] from rfl]

theorem read_script {kids : List Node} (hc : ¬ "]]>".toList <:+: kids.flatMap (scriptText val)) :
    ∃ k, (State.mk .content h up).feed (scriptContent val "xml".toList kids) = some ⟨.content, k.reverse ++ h, up⟩ ∧
      Same k [.text (scriptOf val kids)] := by
  unfold scriptContent scriptOf
  rw [if_pos rfl]
  exact read_script_text h up hc

theorem sorted_names {attrs : List (Str × List Item)} (hn : ∀ kv ∈ attrs, Name kv.1) : ∀ kv ∈ sorted attrs, Name kv.1 := by
  intro kv hkv
  exact hn kv ((List.perm_insertionSort _ _).mem_iff.1 hkv)

theorem kept_nodup {kvs : List (Str × List Item)} (hn : (kvs.map (·.1)).Nodup) :
    ((kvs.filterMap (attrOf val)).map (·.1)).Nodup := by
  refine hn.sublist ?_
  clear hn
  induction kvs with
  | nil => exact List.Sublist.slnil
  | cons kv kvs ih =>
    rw [List.filterMap_cons, List.map_cons]
    cases e : attrOf val kv with
    | none => exact ih.cons _
    | some x =>
      have : x.1 = kv.1 := by
        unfold attrOf at e
        split at e
        · cases e
        · cases e; rfl
      dsimp only
      rw [List.map_cons, this]
      exact ih.cons_cons _

theorem sorted_nodup {attrs : List (Str × List Item)} (hn : (attrs.map (·.1)).Nodup) :
    ((sorted attrs).map (·.1)).Nodup :=
  ((List.perm_insertionSort _ attrs).map _).nodup_iff.2 hn

variable {val} {o : Opts} {py : PyCompile}

mutual
/-- Reading a node. -/
theorem read_node : ∀ (x : Node) (_ : Plain py o x) (_ : Proper x) (_ : Closed val o x)
    (_ : ∀ e ∈ x.expressions, noMarkup (val e) = true) (h : List Tree) (up : List (Str × List (Str × Str) × List Tree)),
    ∃ k, (State.mk .content h up).feed (shown val o "xml".toList x) = some ⟨.content, k.reverse ++ h, up⟩ ∧
      Same k (meant val o x)
  | .text ts _, _, _, _, hv, h, up => by
    unfold shown meant
    exact ⟨_, read_text h up val ts hv, same_chars _⟩
  | .cdata ps _ _, _, _, hc, hv, h, up => by
    unfold Closed at hc
    unfold shown meant
    exact ⟨[_], read_cdata h up _ hc, Same.refl _⟩
  | .comment t _, _, hp, _, hv, h, up => by
    unfold Proper at hp
    unfold shown meant
    split
    · exact ⟨[], rfl, Same.refl _⟩
    · exact ⟨[_], read_comment h up t hp, Same.refl _⟩
  | .elem tag attrs ln kids, hpl, hp, hc, hv, h, up => by
    unfold Plain at hpl
    obtain ⟨-, -, hnd, -, -, -, hpk⟩ := hpl
    unfold Proper at hp
    obtain ⟨ht, ha, hk⟩ := hp
    unfold Closed at hc
    unfold Node.expressions at hv
    unfold shown meant
    obtain ⟨m, hm, hm'⟩ := read_attrs h up val (m := .name tag) (t := tag) (as := []) (.inl ⟨rfl, rfl⟩) (sorted attrs)
      (sorted_names ha)
    rw [List.nil_append] at hm
    have hnd' := kept_nodup val (sorted_nodup hnd)
    refine ⟨[_], ?_, Same.refl _⟩
    refine feed_then (feed_then (read_name h up tag ht) hm') ?_
    generalize (sorted attrs).filterMap (attrOf val) = as at hm hnd'
    by_cases hke : kids.isEmpty = true
    · rw [if_pos hke, if_pos hke]
      unfold emptyTag
      rw [xml_html]
      simp only [Bool.false_and, Bool.false_or, Bool.false_eq_true, if_false]
      split
      · refine feed_cons (hm.gt h up hnd') ((read_close [] up tag as h ht).trans ?_)
        rfl
      · exact hm.empty h up hnd'
    · rw [if_neg hke, if_neg hke, xml_html]
      simp only [Bool.false_and, Bool.false_eq_true, if_false]
      by_cases hs : script o tag = true
      · rw [if_pos hs, if_pos hs]
        rw [if_pos hs] at hc
        obtain ⟨k, h1, h2⟩ := read_script val (h := []) (up := (tag, as, h) :: up) hc
        refine feed_then (feed_then (feed_one (hm.gt h up hnd')) h1) ((read_close _ up tag as h ht).trans ?_)
        rw [List.append_nil, List.reverse_reverse, h2.joined_eq]
        simp only [joined]
        rw [if_neg (by simp [scriptOf])]
        rfl
      · rw [if_neg hs, if_neg hs]
        rw [if_neg hs] at hc
        obtain ⟨k, h1, h2⟩ := read_nodes kids hpk hk hc (fun e he => hv e (List.mem_append_right _ he)) []
          ((tag, as, h) :: up)
        refine feed_then (feed_then (feed_one (hm.gt h up hnd')) h1) ((read_close _ up tag as h ht).trans ?_)
        rw [List.append_nil, List.reverse_reverse, h2.joined_eq]
        rfl

/-- Reading several nodes. -/
theorem read_nodes : ∀ (xs : List Node) (_ : PlainAll py o xs) (_ : ProperAll xs) (_ : ClosedAll val o xs)
    (_ : ∀ e ∈ expressionsAll xs, noMarkup (val e) = true) (h : List Tree) (up : List (Str × List (Str × Str) × List Tree)),
    ∃ k, (State.mk .content h up).feed (shownAll val o "xml".toList xs) = some ⟨.content, k.reverse ++ h, up⟩ ∧
      Same k (meantAll val o xs)
  | [], _, _, _, _, h, up => by
    unfold shownAll meantAll
    exact ⟨[], rfl, Same.refl _⟩
  | x :: xs, hpl, hp, hc, hv, h, up => by
    unfold PlainAll at hpl
    unfold ProperAll at hp
    unfold ClosedAll at hc
    unfold expressionsAll at hv
    unfold shownAll meantAll
    obtain ⟨k, h1, h2⟩ := read_node x hpl.1 hp.1 hc.1 (fun e he => hv e (List.mem_append_left _ he)) h up
    obtain ⟨k', h3, h4⟩ := read_nodes xs hpl.2 hp.2 hc.2 (fun e he => hv e (List.mem_append_right _ he)) (k.reverse ++ h) up
    exact ⟨k ++ k', (feed_then h1 h3).trans (by simp), h2.append h4⟩
end

theorem line_ends {s : Str} (hs : '\r' ∉ s) : lineEnds s = s := by
  induction s with
  | nil => rfl
  | cons c s ih =>
    simp only [List.mem_cons, not_or] at hs
    unfold lineEnds
    split
    · next h1 => cases h1
    · next h1 => cases h1; exact absurd rfl hs.1
    · next h1 =>
      cases h1
      rw [if_neg (Ne.symm hs.1), ih hs.2]

end Kajiki.Reads
