import Verif.Lemmas.PureText
import Verif.Props.TextRender

/-!
# C75: what a text template shows

`Verif/Spec/PureText.lean` says what a text template shows, as a function of the values of variables.
-/

namespace Kajiki.Props
open Kajiki.Run Kajiki.Spec.TextSem Kajiki.Spec.TextTree Kajiki.Spec.TextSource Kajiki.Texts
open Kajiki.Spec.PureText (Fn fnsAll Runs Globals Reserved OkAll Ok mayCall)
open Kajiki.Spec.Pure (Py Evals)
open Kajiki.Spec.Funs (Calls)

variable {W : Type}

/-- C75 for the semantics of trees. -/
theorem text_shows (ts : List Template) (load : Str → Option Nat) (aliasFor : Str → Str) (i : Nat) (t : Template)
    (ht : ts[i]? = some t) (context : Dict Val) (hn : (context.map (·.1)).Nodup) :
    ∃ G, Globals t context G ∧ ∀ (O : Oracle W) (w : W) (py : Py) (C : Calls), Runs O py C context t → ∀ n,
      let r := rendered (program ts load aliasFor) O n i context w
      let m := Spec.PureText.shown C py G t n
      r.out.txt = m.text ∧ r.val = m.res := by
  by_cases hex : ∃ (O : Oracle W) (py : Py) (C : Calls), Runs O py C context t
  · obtain ⟨O₀, py₀, C₀, hr₀⟩ := hex
    exact ⟨_, PureTexts.globals_ok hr₀ hn, fun O w py C hr n => PureTexts.rendered_ok ht hr load aliasFor n w⟩
  · exact ⟨fun k => Dict.get context k, ⟨fun _ _ h _ => h, fun _ h _ _ _ => h⟩,
      fun O w py C hr => absurd ⟨O, py, C, hr⟩ hex⟩

/-- **C75.** Rendering a text template that has expressions, conditions, loops, choices, Python blocks, functions
(`%def`) and blocks, but no `%call`, no function in a function, and no other templates.  The text it gives, and whether it
ends with an exception, is what `shown` says, which is a function of the values of variables.  The variables are those of
the context.  `n` is how deep calls can be nested before Python raises an exception. -/
theorem C75_text_template_shows (ts : List Template) (S : Source) (P : Prog (List Stmt))
    (hc : List.Forall₂ (fun t u => u = (template t.conf.autoescape t.conf.gen t.tree, t.base)) ts S.tmpls)
    (hp : ∀ t ∈ ts, tidyAll t.tree = true) (h : S.compile = some P) (i : Nat) (t : Template) (ht : ts[i]? = some t)
    (context : Dict Val) (hn : (context.map (·.1)).Nodup) :
    ∃ G, Globals t context G ∧ ∀ (O : Oracle W) (w : W) (py : Py) (C : Calls), Runs O py C context t → ∀ n,
      let r := render P O n i context w
      let m := Spec.PureText.shown C py G t n
      r.out.txt = m.text ∧ r.val = m.res := by
  obtain ⟨G, h1, h2⟩ := text_shows (W := W) ts S.load S.aliasFor i t ht context hn
  refine ⟨G, h1, fun O w py C hr n => ?_⟩
  have h4 := C64_rendering_is_tree ts S P O hc hp h n i context w
  have h5 := h2 O w py C hr n
  dsimp only at h4 h5 ⊢
  rw [h4.1, h4.2.1]
  exact h5

/-- **C75.** The same from the sources of the templates. -/
theorem C75_text_source_shows (xs : List File) (ts : List Template) (S : Source) (P : Prog (List Stmt))
    (hc : List.Forall₂ (fun x u => textTemplate x.py x.gen x.autoescape x.filename x.src = .ok u.1 ∧ u.2 = x.base)
      xs S.tmpls)
    (hx : List.Forall₂ Spelled xs ts) (hp : ∀ t ∈ ts, tidyAll t.tree = true) (h : S.compile = some P)
    (i : Nat) (t : Template) (ht : ts[i]? = some t) (context : Dict Val) (hn : (context.map (·.1)).Nodup) :
    ∃ G, Globals t context G ∧ ∀ (O : Oracle W) (w : W) (py : Py) (C : Calls), Runs O py C context t → ∀ n,
      let r := render P O n i context w
      let m := Spec.PureText.shown C py G t n
      r.out.txt = m.text ∧ r.val = m.res := by
  obtain ⟨G, h1, h2⟩ := text_shows (W := W) ts S.load S.aliasFor i t ht context hn
  refine ⟨G, h1, fun O w py C hr n => ?_⟩
  have h4 := C64_rendering_is_source xs ts S P O hc hx hp h n i context w
  have h5 := h2 O w py C hr n
  dsimp only at h4 h5 ⊢
  rw [h4.1, h4.2.1]
  exact h5

/-! ### An example: a function that calls itself, and a block. -/

namespace PureTextDemo

/-- Anything without a closing brace is an expression. -/
def valid : PyCompile := fun s => if s.contains '}' then some (1, s.idxOf '}' + 1) else none

abbrev line (name body : String) (rest : Str) : Str :=
  [] ++ '%' :: (name.toList ++ (body.toList ++ '\n' :: rest))
abbrev name (c : Char) (rest : Str) : Str := '$' :: c :: ([] ++ rest)
abbrev braced (e : String) (rest : Str) : Str := '$' :: '{' :: (e.toList ++ '}' :: rest)
abbrev text (t : String) (rest : Str) : Str := t.toList ++ rest

abbrev tag (name body : String) (rest : Str) : Str :=
  '{' :: '%' :: (name.toList ++ (body.toList ++ '%' :: '}' :: rest))

abbrev source : Str :=
  tag "def" " count(n)" <| tag "if" " n" <| name 'n' <| text "," <| braced "count(n-1)" <| tag "end" "" <|
  tag "end" "" <| text "Hi " <| name 't' <| text ":\n" <| line "block" " body" <| braced "count(x)" <| text "!\n" <|
  line "end" "" []

example : source =
    "{%def count(n)%}{%if n%}$n,${count(n-1)}{%end%}{%end%}Hi $t:\n%block body\n${count(x)}!\n%end\n".toList := by
  decide +kernel

def ttag (n b : String) (l : Nat) : TTok := .tag n.toList b.toList l

def toks : List TTok :=
  [ttag "def" " count(n)" 1, ttag "if" " n" 1, .expr ['n'] 1, .text [','] 1, .expr "count(n-1)".toList 1, ttag "end" "" 1,
   ttag "end" "" 1, .text "Hi ".toList 1, .expr ['t'] 1, .text ":\n".toList 2, ttag "block" " body" 3,
   .expr "count(x)".toList 3, .text "!\n".toList 4, ttag "end" "" 5]

theorem r_line {n b : String} {ln : Nat} {toks : List TTok} {rest : Str}
    (h : (!n.toList.isEmpty && n.toList.all Spec.Text.letter && b.toList.head?.all (!Spec.Text.letter ·)) = true)
    (hb : (!b.toList.contains '\n') = true) (hq : quietB false b.toList ('\n' :: rest) = true)
    (hr : Reads valid true (ln + 1) toks rest) :
    Reads valid true ln (.tag n.toList b.toList (ln + 1) :: toks) (line n b rest) :=
  .line (by simp [Spaces]) (named_of h) (by simpa using hb) (quiet_of hq) hr

theorem reads : Reads valid true 1 toks source := by
  have h : Reads valid true 1 _ source :=
    .tag (named_of (by decide +kernel)) (by decide +kernel) (by decide +kernel) (quiet_of (by decide +kernel)) <|
    .tag (named_of (by decide +kernel)) (by decide +kernel) (by decide +kernel) (quiet_of (by decide +kernel)) <|
    .name (by decide +kernel) (by simp) (by decide +kernel) <|
    .text (by decide +kernel) (quiet_of (by decide +kernel)) (.inr (starts_of (by decide +kernel))) <|
    .braced ⟨1, 11, by decide +kernel, by decide +kernel⟩ (quiet_of (by decide +kernel)) <|
    .tag (named_of (by decide +kernel)) (by decide +kernel) (by decide +kernel) (quiet_of (by decide +kernel)) <|
    .tag (named_of (by decide +kernel)) (by decide +kernel) (by decide +kernel) (quiet_of (by decide +kernel)) <|
    .text (by decide +kernel) (quiet_of (by decide +kernel)) (.inr (starts_of (by decide +kernel))) <|
    .name (by decide +kernel) (by simp) (by decide +kernel) <|
    .text (by decide +kernel) (quiet_of (by decide +kernel)) (.inr (starts_of (by decide +kernel))) <|
    r_line (by decide +kernel) (by decide +kernel) (by decide +kernel) <|
    .braced ⟨1, 9, by decide +kernel, by decide +kernel⟩ (quiet_of (by decide +kernel)) <|
    .text (by decide +kernel) (quiet_of (by decide +kernel)) (.inr (starts_of (by decide +kernel))) <|
    r_line (by decide +kernel) (by decide +kernel) (by decide +kernel) .nil
  refine Eq.subst (motive := fun l => Reads valid true 1 l source) ?_ h
  decide +kernel

def tree : List Dir :=
  [.defD " count(n)".toList [.ifD " n".toList [.expr ['n'] 1, .text [','] 1, .expr "count(n-1)".toList 1]],
   .text "Hi ".toList 1, .expr ['t'] 1, .text ":\n".toList 2,
   .blockD " body".toList [.expr "count(x)".toList 3, .text "!\n".toList 4]]

theorem written : Written true .free tree toks :=
  .defD (tb := [ttag "if" " n" 1, .expr ['n'] 1, .text [','] 1, .expr "count(n-1)".toList 1, ttag "end" "" 1])
    (.ifD (tb := [.expr ['n'] 1, .text [','] 1, .expr "count(n-1)".toList 1])
      (.expr (.text (by decide +kernel) (.expr .nil))) .nil) <|
  .text (by decide +kernel) <| .expr <| .text (by decide +kernel) <|
  .blockD (tb := [.expr "count(x)".toList 3, .text "!\n".toList 4]) (by decide +kernel)
    (.expr (.text (by decide +kernel) .nil)) .nil

def genName : Nat → Str := fun n => "_fn_".toList ++ (toString n).toList
def tmpl : Template := ⟨⟨true, genName⟩, tree, []⟩
def files : List File := [⟨valid, genName, true, none, source, []⟩]
def site : Run.Source := ⟨[(template true genName tree, [])], fun _ => none, id⟩

/-- Python in which expressions are names of variables. -/
def demo : Py where
  eval e look := match look (strip e) with
    | some v => if Spec.Fill.settled v then .ok v else .error .type
    | none => .error .name
  iter _ _ := .ok []
  block _ _ := .ok []
  tr t := t

/-- Calls of the functions of the example. -/
def calls : Calls where
  callee e :=
    if e = "_kj_block_body()".toList then some ("_kj_block_body".toList, fun _ => .ok [])
    else if e = "count(n-1)".toList then some ("count".toList, fun L =>
      match L "n".toList with
      | some (.int k) => .ok [.int (k - 1)]
      | _ => .error .type)
    else if e = "count(x)".toList then some ("count".toList, fun L =>
      match L "x".toList with
      | some v => .ok [v]
      | none => .error .name)
    else none
  bind d vs :=
    if d = "count(n)".toList then (match vs with
      | [v] => .ok [("n".toList, v)]
      | _ => .error .type)
    else if vs.isEmpty then .ok [] else .error .type

/-- Python that does what `demo` does, and calls functions. -/
def pyth : Oracle Nat where
  eval e v w :=
    match calls.callee e with
    | some (f, args) =>
      match Spec.Pure.visible v f with
      | some (.fn g) =>
        match args (Spec.Pure.visible v) with
        | .ok vs => (.ok (.flatCall w g vs), w + 1)
        | .error x => (.error x, w)
      | _ => (.error .name, w)
    | none => (demo.eval e (Spec.Pure.visible v), w)
  iter e v w := (demo.iter e (Spec.Pure.visible v), w)
  py _ _ w := (.ok [], w)
  args d vs w := (calls.bind d vs, w)
  gettext _ s w := (.ok (.str s), w)

theorem evals {e : Str} (h : calls.callee e = none) : Evals pyth demo e := by
  refine ⟨fun v w => ?_, fun look v h => ?_⟩
  · unfold pyth
    dsimp only
    rw [h]
  · unfold demo at h
    dsimp only at h
    split at h
    · split at h
      · next hs => cases h; exact hs
      · cases h
    · cases h

def context : Dict Val := [("t".toList, .str "<".toList), ("x".toList, .int 2)]

def fnames : List Str := (fnsAll false tree).map (·.name)

theorem reserved_iff {k : Str} (h : Reserved (fnsAll false tree) k) : k ∈ fnames := by
  obtain ⟨d, hd, rfl⟩ := h
  exact List.mem_map_of_mem hd

theorem runs : Runs pyth demo calls context tmpl where
  ok := by
    have h1 : Evals pyth demo " n".toList := evals (by decide +kernel)
    have h2 : Evals pyth demo ['n'] := evals (by decide +kernel)
    have h5 : Evals pyth demo ['t'] := evals (by decide +kernel)
    have h3 : mayCall (fnsAll false tree) calls "count(n-1)".toList = true := by decide +kernel
    have h4 : mayCall (fnsAll false tree) calls "count(x)".toList = true := by decide +kernel
    change OkAll pyth demo (mayCall (fnsAll false tree) calls) false tree
    generalize mayCall (fnsAll false tree) calls = m at h3 h4
    unfold tree
    simp only [OkAll, Ok]
    exact ⟨⟨trivial, ⟨h1, fun _ => h2, trivial, fun h => absurd (h3.symm.trans h) (by decide), trivial⟩, trivial⟩, trivial,
      fun _ => h5, trivial, ⟨fun h => absurd (h4.symm.trans h) (by decide), trivial, trivial⟩, trivial⟩
  reads := by decide +kernel
  distinct := by decide +kernel
  names := by decide +kernel
  blockCalls q name b hb := by
    have : ∀ d ∈ fnsAll false tree, (match d with
      | .block _ name _ => name == " body".toList
      | _ => true) = true := by decide +kernel
    have := this _ hb
    dsimp only at this
    rw [beq_iff_eq] at this
    subst this
    exact ⟨show strip ((blockDecl " body".toList).takeWhile (· != '(')) = _ by decide +kernel, rfl⟩
  main _ := rfl
  args _ _ _ _ := rfl
  params d hd vs ρ h k hk := by
    unfold calls at h
    dsimp only at h
    split at h
    · split at h
      · cases h
        rw [Dict.get_cons, if_neg]
        · rfl
        · rintro rfl
          exact absurd (reserved_iff hk) (by decide +kernel)
      · cases h
    · split at h
      · cases h; rfl
      · cases h
  calls := by
    refine ⟨id, fun e f args v w g he hf => ?_⟩
    unfold pyth
    dsimp only
    rw [he]
    dsimp only
    rw [hf]
    cases args (Spec.Pure.visible v) with
    | error x => rfl
    | ok vs => exact ⟨w + 1, rfl, Nat.lt_succ_self _⟩
  tidy := ⟨(fun e L bs h b hb => by cases h; cases hb), fun ls L b h => by cases h; exact fun _ _ => rfl⟩
  free k hk := by
    have : k ∈ "local".toList :: fnames := by
      rcases hk with rfl | hk
      · exact List.mem_cons_self
      · exact List.mem_cons_of_mem _ (reserved_iff hk)
    exact (by decide +kernel : ∀ k ∈ "local".toList :: fnames, Dict.get context k = none) k this
  base := rfl

theorem spelled : List.Forall₂ Spelled files [tmpl] := .cons ⟨⟨_, reads, written⟩, rfl, rfl⟩ .nil

theorem read : List.Forall₂ (fun x u =>
    textTemplate x.py x.gen x.autoescape x.filename x.src = .ok u.1 ∧ u.2 = x.base) files site.tmpls :=
  .cons ⟨C64_source_is_tree reads written (.inl (by decide +kernel)), rfl⟩ .nil

/-- What the example shows. -/
example : (Spec.PureText.shown calls demo (Dict.get context) tmpl 9).text = "Hi &lt;:\n2,1,!\n".toList := by decide +kernel

/-- If calls cannot be nested that deep. -/
example : let m := Spec.PureText.shown calls demo (Dict.get context) tmpl 4
    m.text = "Hi &lt;:\n2,1,".toList ∧ m.res.toOption = none := by decide +kernel

example : ∃ P G, site.compile = some P ∧ ∀ n, (render P pyth n 0 context 0).out.txt =
    (Spec.PureText.shown calls demo G tmpl n).text := by
  obtain ⟨P, hP⟩ : ∃ P, site.compile = some P := Option.isSome_iff_exists.1 (by decide +kernel)
  obtain ⟨G, -, h⟩ := C75_text_source_shows (W := Nat) files [tmpl] site P read spelled (by decide +kernel) hP 0 tmpl rfl
    context (by decide +kernel)
  exact ⟨P, G, hP, fun n => (h pyth 0 demo calls runs n).1⟩

end PureTextDemo

end Kajiki.Props
