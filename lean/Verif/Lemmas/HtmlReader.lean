import Verif.Spec.HtmlReader
import Verif.Lemmas.Reader

/-! Reading what a document with expressions shows in html mode. -/

namespace Kajiki.ReadsHtml
open Kajiki.Spec.HtmlReader Kajiki.Spec.Fill
open Kajiki.Spec.Reader (noMarkup Doctype)
open Kajiki.Reads (infix_cons infix_concat Safe)
open Kajiki.Spec.Static (reference quoted attrText flags)
open Kajiki.Spec.DocSem (script html void close emptyTag)

/-! ## Merging -/

theorem joined_congr (x : List Token) {a b : List Token} (h : joined a = joined b) : joined (x ++ a) = joined (x ++ b) := by
  induction x with
  | nil => exact h
  | cons y x ih => cases y <;> simp only [List.cons_append, joined, ih]

/-- The same whatever comes next. -/
def Same (a b : List Token) : Prop := ∀ z, joined (a ++ z) = joined (b ++ z)

theorem Same.refl (a : List Token) : Same a a := fun _ => rfl

theorem Same.append {a b c d : List Token} (h : Same a b) (h' : Same c d) : Same (a ++ c) (b ++ d) := by
  intro z
  rw [List.append_assoc, List.append_assoc, h, joined_congr b (h' z)]

theorem Same.joined_eq {a b : List Token} (h : Same a b) : joined a = joined b := by simpa using h []

/-- The characters of a text. -/
def chars (s : Str) : List Token := s.map fun c => .chars [c]

theorem joined_chars (t u : Str) (z : List Token) : joined (.chars t :: .chars u :: z) = joined (.chars (t ++ u) :: z) := by
  simp only [joined]
  rcases joined z with _ | ⟨x, ys⟩
  · by_cases hu : u = [] <;> by_cases ht : t = [] <;> simp [hu, ht]
  · cases x <;> by_cases hu : u = [] <;> by_cases ht : t = [] <;> simp [hu, ht]

theorem same_chars (s : Str) : Same (chars s) [.chars s] := by
  intro z
  induction s with
  | nil =>
    show joined z = joined (.chars [] :: z)
    simp only [joined]
    split
    · next h => rw [h]; rfl
    · simp
  | cons c s ih =>
    show joined (.chars [c] :: (chars s ++ z)) = joined (.chars (c :: s) :: z)
    rw [show Token.chars [c] :: (chars s ++ z) = [Token.chars [c]] ++ (chars s ++ z) from rfl, joined_congr _ ih]
    exact joined_chars [c] s z

theorem same_chars_two (s t : Str) : Same [.chars s, .chars t] [.chars (s ++ t)] := fun z => joined_chars s t z

/-! ## Reading one thing after the other -/

theorem feed_append (s : State) (a b : Str) : s.feed (a ++ b) = (s.feed a).bind fun s' => s'.feed b := by
  induction a generalizing s with
  | nil => rfl
  | cons c a ih =>
    simp only [List.cons_append, State.feed]
    cases s.step c with
    | none => rfl
    | some s' => simpa using ih s'

theorem feed_then {s s' s'' : State} {a b : Str} (h : s.feed a = some s') (h' : s'.feed b = some s'') :
    s.feed (a ++ b) = some s'' := by
  rw [feed_append, h]
  exact h'

theorem feed_one {s s' : State} {c : Char} (h : s.step c = some s') : s.feed [c] = some s' := by
  simp [State.feed, h]

theorem feed_cons {s s' s'' : State} {c : Char} {b : Str} (h : s.step c = some s') (h' : s'.feed b = some s'') :
    s.feed (c :: b) = some s'' := feed_then (feed_one h) h'

/-! ## Text -/

variable (it : Bool) (h : List Token)

theorem read_reference (c : Char) :
    (State.mk .content it h).feed (reference c) = some ⟨.content, it, .chars [c] :: h⟩ := by
  unfold reference
  split
  · next h2 => subst h2; rfl
  · next h2 =>
    split
    · next h3 => subst h3; rfl
    · next h3 =>
      split
      · next h4 => subst h4; rfl
      · next h4 =>
        refine feed_one ?_
        simp only [State.step, State.add, h2, h3, if_false]

theorem read_references (s : Str) :
    (State.mk .content it h).feed (s.flatMap reference) = some ⟨.content, it, (chars s).reverse ++ h⟩ := by
  induction s generalizing h with
  | nil => rfl
  | cons c s ih =>
    rw [List.flatMap_cons]
    refine feed_then (read_reference it h c) ((ih _).trans ?_)
    simp [chars]

theorem read_quoted (s : Str) :
    (State.mk .content it h).feed (quoted s) = some ⟨.content, it, (chars s).reverse ++ h⟩ := by
  induction s generalizing h with
  | nil => rfl
  | cons c s ih =>
    have e : quoted (c :: s) = (if c = '"' then "&quot;".toList else reference c) ++ quoted s := rfl
    rw [e]
    refine feed_then (s' := ⟨.content, it, .chars [c] :: h⟩) ?_ ((ih _).trans ?_)
    · split
      · next h1 => subst h1; rfl
      · exact read_reference it h c
    · simp [chars]

theorem read_value (v : Val) (hv : noMarkup v = true) :
    (State.mk .content it h).feed (escapedValue v) = some ⟨.content, it, (chars (plainValue v)).reverse ++ h⟩ := by
  cases v <;> first | rfl | exact absurd hv Bool.false_ne_true | exact read_quoted it h _

variable (val : Str → Val)

/-- The values of a text are not markup. -/
def Safe (ts : List Item) : Prop := ∀ e ∈ expressions ts, noMarkup (val e) = true

theorem read_text (ts : List Item) (hs : Safe val ts) :
    (State.mk .content it h).feed (textShown val ts) = some ⟨.content, it, (chars (attrValue val ts)).reverse ++ h⟩ := by
  induction ts generalizing h with
  | nil => rfl
  | cons t ts ih =>
    have hs' : Safe val ts := fun e he => hs e (by
      unfold expressions at he ⊢
      rw [List.filterMap_cons]
      split
      · exact he
      · exact List.mem_cons_of_mem _ he)
    unfold textShown
    rw [List.flatMap_cons]
    have key : ∀ (a b : Str), (State.mk .content it h).feed a = some ⟨.content, it, (chars b).reverse ++ h⟩ →
        attrValue val (t :: ts) = b ++ attrValue val ts →
        (State.mk .content it h).feed (a ++ textShown val ts) =
          some ⟨.content, it, (chars (attrValue val (t :: ts))).reverse ++ h⟩ := by
      intro a b h1 h2
      refine feed_then h1 ((ih _ hs').trans ?_)
      rw [h2]
      simp [chars]
    cases t with
    | ch c => exact key _ [c] (read_reference it h c) rfl
    | name e => exact key _ _ (read_value it h (val e) (hs e (by simp [expressions, Item.expression]))) rfl
    | expr ws e => exact key _ _ (read_value it h (val e) (hs e (by simp [expressions, Item.expression]))) rfl

/-! ## Tags -/

theorem read_name_more (a t : Str) (ht : ∀ c ∈ t, nameChar c = true) :
    (State.mk (.name a) it h).feed t = some ⟨.name (a ++ t), it, h⟩ := by
  induction t generalizing a with
  | nil => simp [State.feed]
  | cons c t ih =>
    refine feed_cons (s' := ⟨.name (a ++ [c]), it, h⟩) ?_ ((ih _ fun x hx => ht x (List.mem_cons_of_mem _ hx)).trans ?_)
    · simp [State.step, ht c (List.mem_cons_self ..)]
    · simp

theorem name_first {c : Char} (hc : nameChar c = true) : c ≠ '/' ∧ c ≠ '!' ∧ c ≠ '>' ∧ c ≠ ' ' ∧ c ≠ '=' := by
  refine ⟨?_, ?_, ?_, ?_, ?_⟩ <;> (rintro rfl; revert hc; decide +kernel)

theorem read_name (t : Str) (ht : Name t) :
    (State.mk .content false h).feed ('<' :: t) = some ⟨.name t, false, h⟩ := by
  obtain ⟨hne, hall⟩ := ht
  cases t with
  | nil => exact absurd rfl hne
  | cons c t =>
    have hc := hall c (List.mem_cons_self ..)
    obtain ⟨h1, h2, -⟩ := name_first hc
    refine feed_cons (s' := ⟨.lt, false, h⟩) (by simp [State.step]) (feed_cons (s' := ⟨.name [c], false, h⟩) ?_ ?_)
    · simp [State.step, h1, h2, hc]
    · exact read_name_more false h [c] t fun x hx => hall x (List.mem_cons_of_mem _ hx)

/-- After the name or an attribute. -/
def AtTag (m : Mode) (t : Str) (as : List (Str × Str)) : Prop :=
  (m = .name t ∧ as = []) ∨ m = .tag t as ∨ ∃ as' n, m = .attr t as' n ∧ as = as' ++ [(n, [])]

theorem AtTag.step {m : Mode} {t : Str} {as : List (Str × Str)} (hm : AtTag m t as) {c : Char} (hc : nameChar c = false)
    (he : c ≠ '=' := by decide) :
    (State.mk m it h).step c = (State.mk m it h).tagEnd t as c := by
  rcases hm with ⟨rfl, rfl⟩ | rfl | ⟨as', n, rfl, rfl⟩
  · simp [State.step, hc]
  · rfl
  · simp [State.step, hc, he]

theorem AtTag.space {m : Mode} {t : Str} {as : List (Str × Str)} (hm : AtTag m t as) :
    (State.mk m it h).step ' ' = some ⟨.space t as, it, h⟩ := by
  rw [hm.step it h (by decide +kernel)]
  rfl

theorem AtTag.gt {m : Mode} {t : Str} {as : List (Str × Str)} (hm : AtTag m t as) (hn : (as.map (·.1)).Nodup)
    (ht : t ∉ strange) :
    (State.mk m it h).step '>' =
      some ⟨if t ∈ rawTags then .raw [] else .content, decide (t ∈ textTags), .start t as :: h⟩ := by
  rw [hm.step it h (by decide +kernel)]
  have : Spec.Reader.space '>' = false := by decide +kernel
  simp only [State.tagEnd, this, Bool.false_eq_true, if_false]
  rw [if_pos ⟨trivial, hn, ht⟩]

theorem read_attr_more (t : Str) (as : List (Str × Str)) (a n : Str) (hn : ∀ c ∈ n, nameChar c = true) :
    (State.mk (.attr t as a) it h).feed n = some ⟨.attr t as (a ++ n), it, h⟩ := by
  induction n generalizing a with
  | nil => simp [State.feed]
  | cons c n ih =>
    refine feed_cons (s' := ⟨.attr t as (a ++ [c]), it, h⟩) ?_ ((ih _ fun x hx => hn x (List.mem_cons_of_mem _ hx)).trans ?_)
    · simp [State.step, hn c (List.mem_cons_self ..)]
    · simp

theorem read_attr_value (t : Str) (as : List (Str × Str)) (n a v : Str) :
    (State.mk (.value t as n a) it h).feed (quoted v) = some ⟨.value t as n (a ++ v), it, h⟩ := by
  induction v generalizing a with
  | nil => simp [quoted, State.feed]
  | cons c v ih =>
    have e : quoted (c :: v) = (if c = '"' then "&quot;".toList else reference c) ++ quoted v := rfl
    rw [e]
    refine feed_then (s' := ⟨.value t as n (a ++ [c]), it, h⟩) ?_ ((ih _).trans ?_)
    · split
      · next h1 => subst h1; rfl
      · next h1 =>
        unfold reference
        split
        · next h2 => subst h2; rfl
        · next h2 =>
          split
          · next h3 => subst h3; rfl
          · next h3 =>
            split
            · next h4 => subst h4; rfl
            · next h4 =>
              refine feed_one ?_
              simp only [State.step, h1, h2, if_false]
    · simp

theorem read_attr_name {m : Mode} {t : Str} {as : List (Str × Str)} (hm : AtTag m t as) (n : Str) (hn : Name n) :
    (State.mk m it h).feed (' ' :: n) = some ⟨.attr t as n, it, h⟩ := by
  obtain ⟨hne, hall⟩ := hn
  cases n with
  | nil => exact absurd rfl hne
  | cons c n =>
    have hc := hall c (List.mem_cons_self ..)
    refine feed_cons (hm.space it h) (feed_cons (s' := ⟨.attr t as [c], it, h⟩) ?_
      (read_attr_more it h t as [c] n fun x hx => hall x (List.mem_cons_of_mem _ hx)))
    simp [State.step, hc]

variable {mode : Str}

theorem read_attr (hh : html mode = true) {m : Mode} {t : Str} {as : List (Str × Str)} (hm : AtTag m t as) (n v : Str)
    (hn : Name n) :
    ∃ m', AtTag m' t (as ++ [(n, if flags.contains n then [] else v)]) ∧
      (State.mk m it h).feed (attrText mode (n, v)) = some ⟨m', it, h⟩ := by
  have h0 := read_attr_name it h hm n hn
  unfold attrText
  rw [hh, Bool.true_and]
  dsimp only
  by_cases hf : flags.contains n = true
  · rw [if_pos hf, if_pos hf]
    exact ⟨_, .inr (.inr ⟨as, n, rfl, rfl⟩), h0⟩
  · rw [if_neg hf, if_neg hf]
    refine ⟨.tag t (as ++ [(n, v)]), .inr (.inl rfl), ?_⟩
    rw [show "=\"".toList = ['=', '"'] from rfl, show "\"".toList = ['"'] from rfl]
    refine feed_then (feed_then (feed_then h0 (s'' := ⟨.value t as n [], it, h⟩) ?_)
      (read_attr_value it h t as n [] v)) (feed_one ?_)
    · refine feed_cons (s' := ⟨.eq t as n, it, h⟩) ?_ (feed_one ?_)
      · have : nameChar '=' = false := by decide +kernel
        simp [State.step, this]
      · simp [State.step]
    · simp [State.step]

theorem read_attrs (hh : html mode = true) {m : Mode} {t : Str} {as : List (Str × Str)} (hm : AtTag m t as)
    (kvs : List (Str × List Item)) (hn : ∀ kv ∈ kvs, Name kv.1) :
    ∃ m', AtTag m' t (as ++ kvs.filterMap (attrOf val)) ∧
      (State.mk m it h).feed (kvs.flatMap (attrShown val mode)) = some ⟨m', it, h⟩ := by
  induction kvs generalizing m as with
  | nil => exact ⟨m, by simpa using hm, rfl⟩
  | cons kv kvs ih =>
    have hn' := fun x hx => hn x (List.mem_cons_of_mem _ hx)
    rw [List.flatMap_cons, List.filterMap_cons]
    by_cases hab : (!kv.2.isEmpty && kv.2.all (absent val)) = true
    · have e1 : attrShown val mode kv = [] := by unfold attrShown; rw [if_pos hab]
      have e2 : attrOf val kv = none := by unfold attrOf; rw [if_pos hab]
      rw [e1, e2]
      exact ih hm hn'
    · have e1 : attrShown val mode kv = attrText mode (kv.1, attrValue val kv.2) := by
        unfold attrShown; rw [if_neg hab]
      have e2 : attrOf val kv = some (kv.1, if flags.contains kv.1 then [] else attrValue val kv.2) := by
        unfold attrOf; rw [if_neg hab]
      rw [e1, e2]
      obtain ⟨m1, h1, h2⟩ := read_attr it h hh hm kv.1 (attrValue val kv.2) (hn kv (List.mem_cons_self ..))
      obtain ⟨m', h3, h4⟩ := ih h1 hn'
      exact ⟨m', by simpa using h3, feed_then h2 h4⟩

theorem read_close_more (a t : Str) (ht : ∀ c ∈ t, nameChar c = true) :
    (State.mk (.close a) it h).feed t = some ⟨.close (a ++ t), it, h⟩ := by
  induction t generalizing a with
  | nil => simp [State.feed]
  | cons c t ih =>
    refine feed_cons (s' := ⟨.close (a ++ [c]), it, h⟩) ?_ ((ih _ fun x hx => ht x (List.mem_cons_of_mem _ hx)).trans ?_)
    · simp [State.step, ht c (List.mem_cons_self ..)]
    · simp

theorem read_close (t : Str) (ht : Name t) :
    (State.mk .content it h).feed (close t) = some ⟨.content, false, .stop t :: h⟩ := by
  unfold close
  rw [show "</".toList = ['<', '/'] from rfl, show ">".toList = ['>'] from rfl]
  refine feed_then (feed_then (s' := ⟨.close [], it, h⟩) ?_ (read_close_more it h [] t ht.2)) (feed_one ?_)
  · refine feed_cons (s' := ⟨.lt, it, h⟩) (by simp [State.step]) (feed_one (by simp [State.step]))
  · have : nameChar '>' = false := by decide +kernel
    simp [State.step, this]

theorem read_raw_more (a t : Str) (ht : ¬ "</".toList <:+: a ++ t) :
    (State.mk (.raw a) it h).feed t = some ⟨.raw (a ++ t), it, h⟩ := by
  induction t generalizing a with
  | nil => simp [State.feed]
  | cons c t ih =>
    refine feed_cons (s' := ⟨.raw (a ++ [c]), it, h⟩) ?_ ((ih (a ++ [c]) (by simpa using ht)).trans (by simp))
    unfold State.step
    dsimp only
    rw [if_neg]
    rintro ⟨rfl, hs⟩
    refine ht ?_
    obtain ⟨b, rfl⟩ := hs
    exact ⟨b, t, by simp⟩

theorem read_raw (x t : Str) (hx : ¬ "</".toList <:+: x) (ht : Name t) :
    (State.mk (.raw []) it h).feed (x ++ close t) = some ⟨.content, false, .stop t :: .chars x :: h⟩ := by
  unfold close
  rw [show "</".toList = ['<', '/'] from rfl, show ">".toList = ['>'] from rfl]
  have h1 : (State.mk (.raw x) it h).step '<' = some ⟨.raw (x ++ ['<']), it, h⟩ := by simp [State.step]
  have h2 : (State.mk (.raw (x ++ ['<'])) it h).step '/' = some ⟨.close [], it, .chars x :: h⟩ := by
    unfold State.step
    dsimp only
    rw [if_pos ⟨rfl, List.suffix_append _ _⟩, List.dropLast_concat]
  refine feed_then (read_raw_more it h [] x hx) (feed_then (feed_then (feed_cons h1 (feed_one h2))
    (read_close_more it _ [] t ht.2)) (feed_one ?_))
  have : nameChar '>' = false := by decide +kernel
  simp [State.step, this]

/-! ## Comments and DOCTYPE -/

theorem read_comment_more (a t : Str) (ht : ¬ "--".toList <:+: a ++ t) :
    (State.mk (.comment a) it h).feed t = some ⟨.comment (a ++ t), it, h⟩ := by
  induction t generalizing a with
  | nil => simp [State.feed]
  | cons c t ih =>
    refine feed_cons (s' := ⟨.comment (a ++ [c]), it, h⟩) ?_ ((ih (a ++ [c]) (by simpa using ht)).trans (by simp))
    have : "--".toList.isSuffixOf a = false := by
      rw [Bool.eq_false_iff, ne_eq, List.isSuffixOf_iff_suffix]
      exact fun hs => ht (hs.isInfix.trans (List.prefix_append _ _).isInfix)
    simp only [State.step, this, Bool.false_eq_true, if_false]

theorem read_comment (t : Str) (ht : ¬ "--".toList <:+: t) :
    (State.mk .content false h).feed ("<!-- ".toList ++ t ++ " -->".toList) =
      some ⟨.content, false, .comment (' ' :: t ++ [' ']) :: h⟩ := by
  have h1 : ¬ "--".toList <:+: ' ' :: t := infix_cons (by decide +kernel) (by decide +kernel) ht
  have h2 : ¬ "--".toList <:+: ' ' :: t ++ [' '] := infix_concat (by decide +kernel) (by decide +kernel) h1
  have h3 : ¬ "--".toList <:+: ' ' :: t ++ [' ', '-'] := by
    intro hi
    have e : ' ' :: t ++ [' ', '-'] = (' ' :: t ++ [' ']) ++ ['-'] := by simp
    rw [e, List.infix_concat_iff] at hi
    rcases hi with hi | hi
    · have e2 : "--".toList = ['-'] ++ ['-'] := rfl
      have := hi
      rw [e2] at this
      have := (List.suffix_append_inj_of_length_eq rfl).1 this
      have := this.1
      rw [List.singleton_suffix_iff_getLast?_eq_some, List.getLast?_concat] at this
      exact absurd this (by decide +kernel)
    · exact h2 hi
  have e : "<!-- ".toList ++ t ++ " -->".toList = "<!--".toList ++ ((' ' :: t ++ [' ', '-']) ++ "->".toList) := by
    simp
  rw [e]
  refine feed_then (s' := ⟨.comment [], false, h⟩) rfl (feed_then (read_comment_more false h [] _ (by simpa using h3)) ?_)
  rw [show "->".toList = ['-', '>'] from rfl, List.nil_append]
  generalize hX : ' ' :: t = X
  have h4 : ¬ "--".toList <:+: X ++ [' ', '-'] := hX ▸ h3
  refine feed_cons (s' := ⟨.comment (X ++ [' ', '-', '-']), false, h⟩) ?_ (feed_one ?_)
  · have : "--".toList.isSuffixOf (X ++ [' ', '-']) = false := by
      rw [Bool.eq_false_iff, ne_eq, List.isSuffixOf_iff_suffix]
      exact fun hs => h4 hs.isInfix
    simp only [State.step, this, Bool.false_eq_true, if_false]
    simp
  · have : "--".toList.isSuffixOf (X ++ [' ', '-', '-']) = true := by
      rw [List.isSuffixOf_iff_suffix]
      exact ⟨X ++ [' '], by simp⟩
    simp only [State.step, this, if_true, State.add]
    have e : X ++ [' ', '-', '-'] = (X ++ [' ']) ++ ['-', '-'] := by simp
    rw [e, List.take_left' (by simp)]

theorem read_doctype (s : Str) (hs : Doctype s) : (State.mk .content false h).feed s = some ⟨.content, false, h⟩ := by
  obtain ⟨r, rfl, hr⟩ := hs
  rw [List.append_assoc]
  refine feed_then (s' := ⟨.doctype, false, h⟩) rfl (feed_then (s' := ⟨.doctype, false, h⟩) ?_ rfl)
  induction r with
  | nil => rfl
  | cons c r ih =>
    simp only [List.mem_cons, not_or] at hr
    refine feed_cons (s' := ⟨.doctype, false, h⟩) ?_ (ih hr.2)
    simp [State.step, Ne.symm hr.1]


/-! ## Documents -/

theorem sorted_names {attrs : List (Str × List Item)} (hn : ∀ kv ∈ attrs, Name kv.1) : ∀ kv ∈ sorted attrs, Name kv.1 := by
  intro kv hkv
  exact hn kv ((List.perm_insertionSort _ _).mem_iff.1 hkv)

theorem kept_nodup {kvs : List (Str × List Item)} (hn : (kvs.map (·.1)).Nodup) :
    ((kvs.filterMap (attrOf val)).map (·.1)).Nodup := by
  refine hn.sublist ?_
  clear hn
  induction kvs with
  | nil => exact List.Sublist.slnil
  | cons kv kvs ih =>
    rw [List.filterMap_cons, List.map_cons]
    cases e : attrOf val kv with
    | none => exact ih.cons _
    | some x =>
      have : x.1 = kv.1 := by
        unfold attrOf at e
        split at e
        · cases e
        · cases e; rfl
      dsimp only
      rw [List.map_cons, this]
      exact ih.cons_cons _

/-- Reading text, also in `title` and `textarea`. -/
theorem read_only_text {o : Opts} : ∀ (xs : List Node) (_ : ∀ x ∈ xs, isChars x = true)
    (_ : ∀ e ∈ expressionsAll xs, noMarkup (val e) = true) (it : Bool) (h : List Token),
    ∃ k, (State.mk .content it h).feed (shownAll val o mode xs) = some ⟨.content, it, k.reverse ++ h⟩ ∧
      Same k (meantAll val xs)
  | [], _, _, it, h => by
    unfold shownAll meantAll
    exact ⟨[], rfl, Same.refl _⟩
  | x :: xs, hx, hv, it, h => by
    have h0 := hx x (List.mem_cons_self ..)
    unfold expressionsAll at hv
    cases x with
    | text ts ln =>
      unfold shownAll meantAll
      obtain ⟨k', h3, h4⟩ := read_only_text xs (fun x h => hx x (List.mem_cons_of_mem _ h))
        (fun e he => hv e (List.mem_append_right _ he)) it ((chars (attrValue val ts)).reverse ++ h)
      refine ⟨chars (attrValue val ts) ++ k', (feed_then ?_ h3).trans (by simp), ?_⟩
      · unfold shown
        exact read_text it h val ts fun e he => hv e (List.mem_append_left _ he)
      · unfold meant
        exact (same_chars _).append h4
    | _ => cases h0

variable {val} {o : Opts} {py : PyCompile}

theorem void_not_raw {tag : Str} (h : tag ∈ rawTags ∨ tag ∈ textTags) : void tag = false := by
  have : ∀ t ∈ rawTags ++ textTags, void t = false := by decide +kernel
  exact this tag (List.mem_append.2 h)

theorem script_raw {tag : Str} (hc : o.cdataScripts = true) : script o tag = decide (tag ∈ rawTags) := by
  simp [script, hc, Spec.DocSem.scriptTag, rawTags]

mutual
/-- Reading a node. -/
theorem read_node (hh : html mode = true) (hcs : o.cdataScripts = true) : ∀ (x : Node) (_ : Plain py o x) (_ : Proper x)
    (_ : Closed val x) (_ : ∀ e ∈ x.expressions, noMarkup (val e) = true) (h : List Token),
    ∃ k, (State.mk .content false h).feed (shown val o mode x) = some ⟨.content, false, k.reverse ++ h⟩ ∧
      Same k (meant val x)
  | .text ts _, _, _, _, hv, h => by
    unfold shown meant
    exact ⟨_, read_text false h val ts hv, same_chars _⟩
  | .cdata ps _ _, _, hp, _, hv, h => by
    unfold Proper at hp
    exact hp.elim
  | .comment t _, _, hp, _, hv, h => by
    unfold Proper at hp
    unfold shown meant
    split
    · exact ⟨[], rfl, Same.refl _⟩
    · exact ⟨[_], read_comment h t hp, Same.refl _⟩
  | .elem tag attrs ln kids, hpl, hp, hc, hv, h => by
    unfold Plain at hpl
    obtain ⟨-, -, hnd, -, -, -, hpk⟩ := hpl
    unfold Proper at hp
    obtain ⟨ht, hst, ha, htx, hk⟩ := hp
    unfold Closed at hc
    unfold Node.expressions at hv
    have hvk : ∀ e ∈ expressionsAll kids, noMarkup (val e) = true := fun e he => hv e (List.mem_append_right _ he)
    obtain ⟨m, hm, hm'⟩ := read_attrs false h val hh (m := .name tag) (t := tag) (as := []) (.inl ⟨rfl, rfl⟩) (sorted attrs)
      (sorted_names ha)
    rw [List.nil_append] at hm
    have hnd' := kept_nodup val (Reads.sorted_nodup hnd)
    have h0 := hm.gt false h hnd' hst
    have h1 := feed_then (read_name h tag ht) hm'
    have hmode : mode ≠ "xml".toList := by rintro rfl; revert hh; decide +kernel
    unfold shown meant
    by_cases hr : tag ∈ rawTags
    · rw [if_pos hr] at h0 hc
      have hvo := void_not_raw (.inl hr)
      have hs : script o tag = true := by rw [script_raw hcs]; simpa using hr
      refine ⟨[.start tag ((sorted attrs).filterMap (attrOf val)), .chars (kids.flatMap (scriptText val)), .stop tag],
        ?_, ?_⟩
      rotate_left 1
      · have : rawTags.contains tag = true := by simpa using hr
        rw [if_pos this, hvo]
        exact Same.refl _
      · have e : (if kids.isEmpty then emptyTag mode tag
            else ">".toList ++ (if script o tag then scriptContent val mode kids else shownAll val o mode kids) ++
              if html mode && void tag then [] else close tag) =
            '>' :: (kids.flatMap (scriptText val) ++ close tag) := by
          unfold emptyTag scriptContent
          rw [hh, hvo, hs, if_neg hmode]
          split
          · next hke =>
            rw [List.isEmpty_iff] at hke
            subst hke
            rfl
          · rfl
        rw [e]
        exact feed_then h1 (feed_cons h0 (read_raw _ _ _ _ hc ht))
    · rw [if_neg hr] at h0 hc
      have hs : script o tag = false := by rw [script_raw hcs]; simpa using hr
      have hrc : rawTags.contains tag = false := by simpa using hr
      have e : (if kids.isEmpty then emptyTag mode tag
          else ">".toList ++ (if script o tag then scriptContent val mode kids else shownAll val o mode kids) ++
            if html mode && void tag then [] else close tag) =
          '>' :: (shownAll val o mode kids ++ if void tag then [] else close tag) := by
        unfold emptyTag
        rw [hh, hs]
        simp only [Bool.true_and, Bool.true_or, if_true, Bool.false_eq_true, if_false]
        split
        · next hke =>
          rw [List.isEmpty_iff] at hke
          subst hke
          unfold shownAll
          split <;> rfl
        · rfl
      rw [e, hrc, if_neg Bool.false_ne_true]
      have kk : ∃ k, (State.mk .content (decide (tag ∈ textTags)) (.start tag ((sorted attrs).filterMap (attrOf val)) :: h)).feed
          (shownAll val o mode kids) = some ⟨.content, decide (tag ∈ textTags),
            k.reverse ++ .start tag ((sorted attrs).filterMap (attrOf val)) :: h⟩ ∧ Same k (meantAll val kids) := by
        by_cases htt : tag ∈ textTags
        · exact read_only_text val kids (htx htt) hvk _ _
        · rw [decide_eq_false htt]
          exact read_nodes hh hcs kids hpk (hk hr) hc hvk _
      obtain ⟨k, h2, h3⟩ := kk
      by_cases hvo : void tag = true
      · have htt : tag ∉ textTags := fun hx => by rw [void_not_raw (.inr hx)] at hvo; cases hvo
        rw [hvo, if_pos rfl, if_pos rfl, List.append_nil, List.append_nil]
        refine ⟨.start tag ((sorted attrs).filterMap (attrOf val)) :: k, (feed_then h1 (feed_cons h0 h2)).trans ?_,
          (Same.refl [_]).append h3⟩
        rw [decide_eq_false htt]
        simp
      · rw [if_neg hvo, if_neg hvo]
        refine ⟨.start tag ((sorted attrs).filterMap (attrOf val)) :: (k ++ [.stop tag]),
          (feed_then h1 (feed_cons h0 (feed_then h2 (read_close _ _ tag ht)))).trans (by simp),
          (Same.refl [_]).append (h3.append (Same.refl _))⟩

/-- Reading several nodes. -/
theorem read_nodes (hh : html mode = true) (hcs : o.cdataScripts = true) : ∀ (xs : List Node) (_ : PlainAll py o xs)
    (_ : ProperAll xs) (_ : ClosedAll val xs) (_ : ∀ e ∈ expressionsAll xs, noMarkup (val e) = true) (h : List Token),
    ∃ k, (State.mk .content false h).feed (shownAll val o mode xs) = some ⟨.content, false, k.reverse ++ h⟩ ∧
      Same k (meantAll val xs)
  | [], _, _, _, _, h => by
    unfold shownAll meantAll
    exact ⟨[], rfl, Same.refl _⟩
  | x :: xs, hpl, hp, hc, hv, h => by
    unfold PlainAll at hpl
    unfold ProperAll at hp
    unfold ClosedAll at hc
    unfold expressionsAll at hv
    unfold shownAll meantAll
    obtain ⟨k, h1, h2⟩ := read_node hh hcs x hpl.1 hp.1 hc.1 (fun e he => hv e (List.mem_append_left _ he)) h
    obtain ⟨k', h3, h4⟩ := read_nodes hh hcs xs hpl.2 hp.2 hc.2 (fun e he => hv e (List.mem_append_right _ he)) (k.reverse ++ h)
    exact ⟨k ++ k', (feed_then h1 h3).trans (by simp), h2.append h4⟩
end

end Kajiki.ReadsHtml
