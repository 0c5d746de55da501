import Verif.Spec.Raises
import Verif.Lemmas.Swap
import Verif.Spec.Include
import Verif.Spec.Funs
import Verif.Spec.PureText

/-!
# Lemmas for C82: which exceptions there are
-/

namespace Kajiki.RaisesL
open Kajiki.Spec.Pure Kajiki.SwapL Kajiki.Spec.Raises
open Kajiki.Spec.DocSem (Dir dirOf attr script scriptTag plainAttrs special cut)
open Kajiki.Spec.Pure.Shown

variable {α β : Type} {X : Err → Prop}

/-- It ends well or with an exception in `X`. -/
def Only (X : Err → Prop) (m : Shown α) : Prop := ∀ x, m.res = .error x → X x

theorem only_done (a : α) : Only X (done a) := nofun

theorem only_put (t : Str) : Only X (put t) := nofun

theorem only_raise {e : Err} (h : X e) : Only X (raise e : Shown α) := by
  intro x hx
  cases hx
  exact h

theorem only_get {r : Except Err α} (h : ∀ x, r = .error x → X x) : Only X (get r) := by
  intro x hx
  cases r with
  | ok a => cases hx
  | error e => cases hx; exact h _ rfl

theorem only_next {m : Shown α} {f : α → Shown β} (hm : Only X m) (hf : ∀ a, Only X (f a)) : Only X (m.next f) := by
  intro x hx
  unfold next at hx
  cases hr : m.res with
  | ok a => rw [hr] at hx; exact hf a x hx
  | error e => rw [hr] at hx; cases hx; exact hm _ hr

theorem only_seq {m : Shown Unit} {m' : Shown β} (hm : Only X m) (hf : Only X m') : Only X (m.seq m') :=
  only_next hm fun _ => hf

theorem only_each {γ : Type} {f : γ → Shown Unit} (h : ∀ a, Only X (f a)) : ∀ as, Only X (each f as)
  | [] => only_done ()
  | a :: as => only_seq (h a) (only_each h as)

theorem only_keeping {ρ : Vars} {m : Shown Unit} (h : Only X m) : Only X (keeping ρ m) := only_next h fun _ => only_done _

theorem only_ite {p : Prop} [Decidable p] {m m' : Shown α} (h : Only X m) (h' : Only X m') :
    Only X (if p then m else m') := by
  split
  · exact h
  · exact h'

theorem only_loop {f : Vars → Shown Vars} (h : ∀ ρ, Only X (f ρ)) : ∀ bs ρ, Only X (Spec.Pure.loop f bs ρ)
  | [], _ => only_done _
  | _ :: bs, _ => only_next (h _) fun ρ => only_loop h bs ρ

section
variable {py : Py} {c : CEnv} (hX : ∀ x, Raised py x → X x)
  (hC : ∀ e m, py.call e = some m → ∀ L, Only X (m L))
include hX

theorem only_eval (e : Str) (L : Look) : Only X (get (py.eval e L)) := only_get fun x h => hX x (.eval e L h)

theorem only_tagPart (L : Look) (attrs : Dict Str) {m : Shown Unit} (h : Only X m) : Only X (tagPart py L attrs m) := by
  refine only_next ?_ fun b => only_ite h (only_done _)
  unfold kept
  split
  · exact only_done _
  · exact only_done _
  · exact only_next (only_eval hX _ _) fun _ => only_done _

theorem only_parts (L : Look) : ∀ xs x, parts py L xs = .error x → X x
  | [], _, h => by cases h
  | .inl t :: xs, x, h => by
    rw [parts] at h
    cases hp : parts py L xs with
    | ok a => rw [hp] at h; cases h
    | error e => rw [hp] at h; cases h; exact only_parts L xs _ hp
  | .inr e :: xs, x, h => by
    rw [parts] at h
    cases he : py.eval e L with
    | error y => rw [he] at h; cases h; exact hX _ (.eval e L he)
    | ok v =>
      rw [he] at h
      dsimp only at h
      cases hp : parts py L xs with
      | ok a => rw [hp] at h; cases h
      | error e => rw [hp] at h; cases h; exact only_parts L xs _ hp

theorem only_startTag (L : Look) (tag : Str) (attrs : Dict Str) : Only X (startTag py c L tag attrs) := by
  refine only_seq (only_tagPart hX _ _ (only_put _)) (only_seq (only_each (fun kv => only_tagPart hX _ _ ?_) _) ?_)
  · exact only_next (only_get (only_parts hX L _)) fun _ => only_put _
  · refine only_ite (only_done _) (only_tagPart hX _ _ ?_)
    exact only_next (only_eval hX _ _) fun v => only_next (only_get fun x h => hX x (.attrs v c.mode h)) fun _ => only_put _

theorem only_assign (G : Look) : ∀ vs ρ, Only X (assign py G vs ρ)
  | [], _ => only_done _
  | _ :: vs, _ => only_next (only_eval hX _ _) fun _ => only_assign G vs _

include hC

theorem only_value (L : Look) (e : Str) : Only X (value py L e) := by
  unfold value
  split
  · next m h => exact hC e m h L
  · exact only_next (only_eval hX _ _) fun _ => only_put _

theorem only_text (L : Look) (tag d : Str) : Only X (Spec.Pure.text py c L tag d) := by
  refine only_each (fun a => ?_) _
  cases a with
  | inl t => exact only_put _
  | inr e => exact only_value hX hC L e

theorem only_script (L : Look) (kids : List DNode) : Only X (scriptContent py c L kids) := by
  refine only_seq (only_put _) (only_seq (only_each (fun x => ?_) _) (only_put _))
  split
  · refine only_each (fun a => ?_) _
    cases a with
    | inl t => exact only_put _
    | inr e => exact only_value hX hC L _
  · exact only_done _

variable {G : Look} {over : Str → Option (Shown Unit)} (hO : ∀ n m, over n = some m → Only X m)
include hO

set_option linter.unusedSectionVars false in
mutual
theorem only_node : ∀ x : DNode, (∀ href ∈ includes x, Only X (py.incl href)) →
    (∀ els tag, (∀ ρ, Only X (els ρ)) → ∀ ρ, Only X (node py G over c els tag x ρ)) ∧
    ∀ v rest, (∀ ρ, Only X (rest ρ)) → ∀ ρ, Only X (choice py G over c v rest x ρ)
  | .text d _ _, hI => by
    refine ⟨fun els tag he ρ => ?_, fun v rest hr ρ => ?_⟩
    · rw [node]; exact only_keeping (only_text hX hC _ _ _)
    · rw [choice] <;> first | exact hr ρ | nofun
  | .cdata d _, hI => by
    refine ⟨fun els tag he ρ => ?_, fun v rest hr ρ => ?_⟩
    · rw [node]; exact only_keeping (only_text hX hC _ _ _)
    · rw [choice] <;> first | exact hr ρ | nofun
  | .comment d _, hI => by
    refine ⟨fun els tag he ρ => ?_, fun v rest hr ρ => ?_⟩
    · rw [node]; exact only_keeping (only_put _)
    · rw [choice] <;> first | exact hr ρ | nofun
  | .pi _ d _, hI => by
    refine ⟨fun els tag he ρ => ?_, fun v rest hr ρ => ?_⟩
    · rw [node]
      exact only_ite (only_done _) (only_next (only_get fun x h => hX x (.block _ _ h)) fun _ => only_done _)
    · rw [choice] <;> first | exact hr ρ | nofun
  | .elem t as l kids, hI => by
    obtain ⟨i1, -, i3⟩ := only_nodes kids fun href h => hI href (by
      rw [includes]; exact List.mem_append_right _ h)
    refine ⟨fun els tag he ρ => ?_, fun v rest hr ρ => ?_⟩
    · rw [node]
      cases hd : dirOf t with
      | none =>
        dsimp only
        refine only_seq (only_startTag hX _ _ _) (only_ite ?_ (only_ite ?_ ?_))
        · refine only_next (only_keeping (only_tagPart hX _ _ (only_put _))) fun ρ => ?_
          refine only_next (only_keeping (only_value hX hC _ _)) fun ρ => ?_
          exact only_keeping (only_tagPart hX _ _ (only_put _))
        · exact only_keeping (only_tagPart hX _ _ (only_put _))
        · refine only_next (only_keeping (only_tagPart hX _ _ (only_put _))) fun ρ => ?_
          refine only_next (only_ite (only_keeping (only_script hX hC _ _)) (i1 _ _ _)) fun ρ => ?_
          exact only_ite (only_done _) (only_keeping (only_tagPart hX _ _ (only_put _)))
      | some d =>
        cases d with
        | replace => exact only_keeping (only_value hX hC _ _)
        | forD => exact only_next (only_get fun x h => hX x (.iter _ _ h)) fun bs => only_loop (i1 _ _) bs ρ
        | withD => exact only_next (only_assign hX _ _ _) fun σ => only_next (i1 _ _ _) fun _ => only_done _
        | switchD => exact only_next (only_eval hX _ _) fun v => i3 v _ (fun ρ => only_done _) ρ
        | ifD => exact only_next (only_eval hX _ _) fun v => only_ite (i1 _ _ _) (he _)
        | nop => exact i1 _ _ _
        | block =>
          refine only_keeping ?_
          cases ho : over (attr as "name") with
          | some m => exact hO _ _ ho
          | none => exact only_next (i1 _ _ _) fun _ => only_done _
        | incl =>
          refine only_keeping (hI _ ?_)
          rw [includes, if_pos hd]
          exact List.mem_append_left _ (List.mem_singleton.2 rfl)
        | _ => exact only_done _
    · rw [choice]
      cases hd : dirOf t with
      | none => exact hr ρ
      | some d =>
        cases d with
        | caseD => exact only_next (only_eval hX _ _) fun u => only_ite (i1 _ _ _) (hr _)
        | elseD => exact i1 _ _ _
        | nop => exact i3 v rest hr ρ
        | _ => exact hr ρ
theorem only_nodes : ∀ xs : List DNode, (∀ href ∈ includesAll xs, Only X (py.incl href)) →
    (∀ raw tag ρ, Only X (nodes py G over c raw tag xs ρ)) ∧
    (∀ ρ, Only X (otherwise py G over c xs ρ)) ∧
    ∀ v rest, (∀ ρ, Only X (rest ρ)) → ∀ ρ, Only X (choices py G over c v rest xs ρ)
  | [], hI => by
    refine ⟨fun raw tag ρ => ?_, fun ρ => ?_, fun v rest hr ρ => ?_⟩
    · rw [nodes]; exact only_done _
    · rw [otherwise_not [] rfl]; exact only_done _
    · rw [choices]; exact hr ρ
  | x :: xs, hI => by
    obtain ⟨i1, i2, i3⟩ := only_nodes xs fun href h => hI href (by
      rw [includesAll]; exact List.mem_append_right _ h)
    have hI' : ∀ href ∈ includes x, Only X (py.incl href) := fun href h => hI href (by
      rw [includesAll]; exact List.mem_append_left _ h)
    obtain ⟨j1, j2⟩ := only_node x hI'
    refine ⟨fun raw tag ρ => ?_, fun ρ => ?_, fun v rest hr ρ => ?_⟩
    · rw [nodes]
      refine only_next ?_ fun ρ => i1 _ _ _
      split
      · exact only_keeping (only_put _)
      · exact j1 _ _ i2 ρ
    · cases x with
      | elem t as l kids =>
        obtain ⟨k1, -, -⟩ := only_nodes kids fun href h => hI' href (by
          rw [includes]; exact List.mem_append_right _ h)
        rw [otherwise]
        exact only_ite (k1 _ _ _) (only_done _)
      | _ => rw [otherwise_not _ rfl]; exact only_done _
    · rw [choices]
      exact j2 _ _ (fun ρ => i3 v rest hr ρ) ρ
end

end

/-! ## Which templates are included -/

section
variable {W : Type} {O : Run.Oracle W} {py : Py} {c : CEnv}

theorem under_incls (A : Allowed) (d : Option Dir) : (A.under d).incls = A.incls := by
  cases d with
  | none => rfl
  | some d => cases d <;> rfl

mutual
theorem ok_includes : ∀ (A : Allowed) (x : DNode), Ok O py A c x → ∀ href ∈ includes x, A.incls href = true
  | A, .elem t as l kids, h, href, hm => by
    rw [Ok] at h
    obtain ⟨-, -, h1, h2⟩ := h
    rw [includes, List.mem_append] at hm
    rcases hm with hm | hm
    · split at hm
      · next hd =>
        rw [hd] at h1
        rw [List.mem_singleton.1 hm]
        exact h1.1
      · cases hm
    · rw [← under_incls A (dirOf t)]
      exact okAll_includes _ kids h2 href hm
  | _, .text .., _, _, hm => by rw [includes] at hm <;> cases hm
  | _, .cdata .., _, _, hm => by rw [includes] at hm <;> cases hm
  | _, .comment .., _, _, hm => by rw [includes] at hm <;> cases hm
  | _, .pi .., _, _, hm => by rw [includes] at hm <;> cases hm
theorem okAll_includes : ∀ (A : Allowed) (xs : List DNode), OkAll O py A c xs → ∀ href ∈ includesAll xs, A.incls href = true
  | _, [], _, _, hm => by rw [includesAll] at hm; cases hm
  | A, x :: xs, h, href, hm => by
    rw [OkAll] at h
    rw [includesAll, List.mem_append] at hm
    exact hm.elim (ok_includes A x h.1 href) (okAll_includes A xs h.2 href)
end

end

mutual
theorem fns_includes (o : Opts) : ∀ x : DNode, ∀ d ∈ Spec.Funs.fns o x, ∀ href ∈ includesAll d.kids, href ∈ includes x
  | .elem t as l kids, d, hd, href, hm => by
    rw [includes]
    refine List.mem_append_right _ ?_
    rw [Spec.Funs.fns] at hd
    cases ht : dirOf t with
    | none =>
      rw [ht] at hd
      dsimp only at hd
      split at hd
      · cases hd
      · exact fnsAll_includes o kids d hd href hm
    | some q =>
      rw [ht] at hd
      cases q with
      | replace => cases hd
      | block =>
        rcases List.mem_append.1 hd with hd | hd
        · exact fnsAll_includes o kids d hd href hm
        · cases List.mem_singleton.1 hd
          exact hm
      | defn =>
        cases List.mem_singleton.1 hd
        exact hm
      | _ => exact fnsAll_includes o kids d hd href hm
  | .text .., _, hd, _, _ => by rw [Spec.Funs.fns] at hd <;> cases hd
  | .cdata .., _, hd, _, _ => by rw [Spec.Funs.fns] at hd <;> cases hd
  | .comment .., _, hd, _, _ => by rw [Spec.Funs.fns] at hd <;> cases hd
  | .pi .., _, hd, _, _ => by rw [Spec.Funs.fns] at hd <;> cases hd
theorem fnsAll_includes (o : Opts) : ∀ xs : List DNode, ∀ d ∈ Spec.Funs.fnsAll o xs, ∀ href ∈ includesAll d.kids,
    href ∈ includesAll xs
  | [], _, hd, _, _ => by rw [Spec.Funs.fnsAll] at hd; cases hd
  | x :: xs, d, hd, href, hm => by
    rw [Spec.Funs.fnsAll, List.mem_append] at hd
    rw [includesAll, List.mem_append]
    exact hd.imp (fun hd => fns_includes o x d hd href hm) fun hd => fnsAll_includes o xs d hd href hm
end

/-! ## Templates -/

theorem only_shown {py : Py} (hX : ∀ x, Raised py x → X x) (hC : ∀ e m, py.call e = some m → ∀ L, Only X (m L))
    {G : Look} {t : Spec.DocSem.Template} {root : DNode} (hI : ∀ href ∈ includes root, Only X (py.incl href)) :
    Only X (shown py G t root) :=
  only_seq (only_put _) ((only_node hX hC (fun _ _ h => by cases h) root hI).1 _ _ (fun _ => only_done _) _)

section
variable {ts : List Spec.DocSem.Template} {load : Str → Option Nat} {py : Py} {G : Look} {rank : Nat → Nat}

/-- Templates that include each other, not in circles unless the exception of too deep recursion is in `X`. -/
theorem only_shownIn (hX : ∀ x, Raised py x → X x) (hC : ∀ e, py.call e = none)
    (hr : ∀ i (h : i < ts.length), ∃ root, (ts[i]).root? = some root ∧
      ∀ href ∈ includes root, match load href with
        | none => X .ioError
        | some j => j < ts.length ∧ (rank j < rank i ∨ X .recursion)) :
    ∀ n i, i < ts.length → rank i < n ∨ X .recursion → Only X (Spec.Include.shownIn ts load py G n i)
  | 0, i, _, h => only_raise (h.resolve_left (Nat.not_lt_zero _))
  | n + 1, i, hi, h => by
    obtain ⟨root, h1, h2⟩ := hr i hi
    rw [Spec.Include.shownIn, List.getElem?_eq_getElem hi]
    dsimp only
    rw [h1]
    refine only_next (only_shown (py := { py with incl := _ }) (fun x hx => hX x ?_) (fun e m he => ?_) fun href hh => ?_)
      fun _ => only_done _
    · cases hx with
      | eval e L h => exact .eval e L h
      | iter e L h => exact .iter e L h
      | block e L h => exact .block e L h
      | attrs e L h => exact .attrs e L h
    · exact absurd ((hC e).symm.trans he) nofun
    · have := h2 href hh
      dsimp only
      cases hl : load href with
      | none => rw [hl] at this; exact only_raise this
      | some j =>
        rw [hl] at this
        refine only_shownIn hX hC hr n j this.1 (this.2.elim (fun a => h.imp_left fun b => ?_) .inr)
        omega

end

section
open Kajiki.Spec.Funs
variable {ls : List Level} {C : Calls} {py : Py} {G : Nat → Look} {up : Nat → Str → Val}
  (hX : ∀ x, Raised py x → X x) (hA : ∀ e f args, C.callee e = some (f, args) → ∀ L x, args L = .error x → X x)
  (hB : ∀ d args x, C.bind d args = .error x → X x) (hR : X .recursion)
  (hI : ∀ l ∈ ls, includesAll l.kids = [])

/-- What functions show. -/
def Good (X : Err → Prop) (m : Meaning) : Prop :=
  (∀ a d args, includesAll d.kids = [] → Only X (m.fn a d args)) ∧ ∀ a f args, Only X (m.above a f args)

include hX in
theorem raised_at {m : Meaning} {a : Nat} {b : Option Str} (x : Err) (h : Raised (pyAt ls C py m a b) x) : X x := by
  refine hX x ?_
  cases h with
  | eval e L h => exact .eval e L h
  | iter e L h => exact .iter e L h
  | block e L h => exact .block e L h
  | attrs e L h => exact .attrs e L h

include hI in
theorem fnAt_includes {a : Nat} {f : Str} {d : Spec.Funs.Fn} (h : fnAt ls a f = some d) : includesAll d.kids = [] := by
  unfold fnAt at h
  obtain ⟨l, h1, h2⟩ := Option.bind_eq_some_iff.1 h
  have h3 := hI l (List.mem_of_getElem? h1)
  refine List.eq_nil_iff_forall_not_mem.2 fun href hm => ?_
  have := fnsAll_includes _ _ d (List.mem_of_find?_eq_some h2) href hm
  rw [h3] at this
  cases this

include hI in
theorem means_includes {a : Nat} {f : Str} {d : Nat × Spec.Funs.Fn} (h : means ls a f = some d) :
    includesAll d.2.kids = [] := by
  unfold means at h
  obtain ⟨b, -, h2⟩ := List.exists_of_findSome?_eq_some h
  obtain ⟨d', h3, rfl⟩ := Option.map_eq_some_iff.1 h2
  exact fnAt_includes hI h3

include hA hI in
theorem call_at {m : Meaning} (hm : Good X m) {a : Nat} {b : Option Str} (e : Str) (q : Look → Shown Unit)
    (h : (pyAt ls C py m a b).call e = some q) (L : Look) : Only X (q L) := by
  unfold pyAt at h
  dsimp only at h
  cases hc : C.callee e with
  | none => rw [hc] at h; cases h
  | some fa =>
    obtain ⟨f, args⟩ := fa
    rw [hc, Option.bind_some] at h
    dsimp only at h
    split at h
    · cases h
      exact only_next (only_get (hA e f args hc L)) fun _ => hm.2 _ _ _
    · split at h
      · cases h
      · obtain ⟨d, hd, rfl⟩ := Option.map_eq_some_iff.1 h
        exact only_next (only_get (hA e f args hc L)) fun _ => hm.1 _ _ _ (means_includes hI hd)

include hI in
theorem over_at {m : Meaning} (hm : Good X m) {a : Nat} {l : Level} (n : Str) (q : Shown Unit)
    (h : inPlace ls m a l n = some q) : Only X q := by
  unfold inPlace at h
  split at h
  · unfold Spec.Layout.elsewhere at h
    cases h
    exact only_done _
  · obtain ⟨d, hd, rfl⟩ := Option.map_eq_some_iff.1 h
    exact hm.1 _ _ _ (means_includes hI hd)

include hX hA hI in
/-- Content of a template with functions. -/
theorem only_content {m : Meaning} (hm : Good X m) (a : Nat) (b : Option Str) {L : Look} {over : Str → Option (Shown Unit)}
    (hO : ∀ n q, over n = some q → Only X q) {c : CEnv} (tag : Str) {kids : List DNode} (hk : includesAll kids = [])
    (ρ : Vars) : Only X (nodes (pyAt ls C py m a b) L over c false tag kids ρ) :=
  (only_nodes (py := pyAt ls C py m a b) (fun x h => raised_at hX x h) (fun e q h L => call_at hA hI hm e q h L) hO kids
    (by rw [hk]; nofun)).1 _ _ _

include hX hA hB hI in
theorem only_body {m : Meaning} (hm : Good X m) (a : Nat) (d : Spec.Funs.Fn) (args : List Val)
    (hd : includesAll d.kids = []) : Only X (body ls C py G up m a d args) := by
  unfold body
  split
  · exact only_done _
  · refine only_next (only_get (hB _ _)) fun ρ => only_next ?_ fun _ => only_done _
    cases d with
    | defn decl kids => exact only_content hX hA hI hm a none (over_at hI hm) _ hd _
    | block name kids =>
      dsimp only
      split
      · refine only_content hX hA hI hm a (some name) (fun n q h => ?_) _ hd _
        unfold Spec.Layout.elsewhere at h
        cases h
        exact only_done _
      · exact only_content hX hA hI hm a none (over_at hI hm) _ hd _

include hX hA hB hR hI in
theorem good_meaning : ∀ n, Good X (meaning ls C py G up n)
  | 0 => ⟨fun _ _ _ _ => only_raise hR, fun _ _ _ => only_raise hR⟩
  | n + 1 => by
    have hm := good_meaning n
    refine ⟨fun a d args hd => only_body hX hA hB hI hm a d args hd, fun a f args => ?_⟩
    rw [meaning]
    dsimp only
    split
    · exact only_body hX hA hB hI hm a _ args (fnAt_includes hI ‹_›)
    · exact hm.2 _ _ _

include hX hA hB hR hI in
/-- Templates that extend each other. -/
theorem only_shownAt : ∀ n a, Only X (shownAt ls C py G up n a)
  | 0, _ => only_raise hR
  | n + 1, a => by
    rw [shownAt]
    split
    · exact only_done _
    · have hm := good_meaning (G := G) (up := up) hX hA hB hR hI n
      refine only_seq (only_ite (only_shownAt n (a + 1)) (only_put _)) (only_next ?_ fun _ => only_done _)
      exact only_content hX hA hI hm a none (over_at hI hm) _ (hI _ (List.mem_of_getElem? ‹_›)) _

end

/-! ## Text templates -/

section
open Kajiki.Spec.PureText
variable {py : Py} (hX : ∀ x, Raised py x → X x)

section
variable (hC : ∀ e m, py.call e = some m → ∀ L, Only X (m L)) {G : Look} {esc : Bool} {m : Str → List Val → Shown Unit}
  (hm : ∀ f args, Only X (m f args))
include hX hC hm

set_option linter.unusedSectionVars false in
mutual
theorem only_dir : ∀ (d : Spec.TextTree.Dir) ρ, Only X (dir py G esc m d ρ)
  | .text .., _ => by rw [dir]; exact only_keeping (only_put _)
  | .expr e _, _ => by
    rw [dir]
    refine only_keeping ?_
    unfold Spec.PureText.value
    split
    · exact hC _ _ ‹_› _
    · exact only_next (only_eval hX _ _) fun _ => only_put _
  | .ifD e b, _ => by
    rw [dir]
    exact only_next (only_eval hX _ _) fun _ => only_ite (only_dirs b _) (only_done _)
  | .ifElse e b b', _ => by
    rw [dir]
    exact only_next (only_eval hX _ _) fun _ => only_ite (only_dirs b _) (only_dirs b' _)
  | .forD e b, _ => by
    rw [dir]
    exact only_next (only_get fun x h => hX x (.iter _ _ h)) fun _ => only_loop (fun ρ => only_dirs b ρ) _ _
  | .switchD e b, _ => by
    rw [dir]
    exact only_next (only_eval hX _ _) fun _ => only_next (only_choice _ b _) fun _ => only_dirs b _
  | .blockD .., _ => by rw [dir]; exact only_keeping (hm _ _)
  | .py .., _ => by
    rw [dir]
    exact only_ite (only_done _) (only_next (only_get fun x h => hX x (.block _ _ h)) fun _ => only_done _)
  | .caseD .., _ | .elseD .., _ | .defD .., _ | .callD .., _ | .extendsD .., _ | .importD .., _ | .includeD .., _ => by
    rw [dir] <;> first | exact only_done _ | nofun
theorem only_dirs : ∀ (ds : List Spec.TextTree.Dir) ρ, Only X (dirs py G esc m ds ρ)
  | [], _ => by rw [dirs]; exact only_done _
  | d :: ds, _ => by
    rw [dirs]
    exact only_next (only_dir d _) fun _ => only_dirs ds _
theorem only_choice (v : Val) : ∀ (ds : List Spec.TextTree.Dir) ρ, Only X (Spec.PureText.choice py G esc m v ds ρ)
  | [], _ => by rw [Spec.PureText.choice] <;> first | exact only_done _ | nofun
  | .caseD e b :: ds, _ => by
    rw [Spec.PureText.choice]
    exact only_next (only_eval hX _ _) fun _ => only_ite (only_dirs b _) (only_choice v ds _)
  | .elseD b :: _, _ => by
    rw [Spec.PureText.choice]
    exact only_dirs b _
  | .text .. :: _, _ | .expr .. :: _, _ | .ifD .. :: _, _ | .ifElse .. :: _, _ | .forD .. :: _, _ | .switchD .. :: _, _
  | .defD .. :: _, _ | .callD .. :: _, _ | .blockD .. :: _, _ | .py .. :: _, _ | .extendsD .. :: _, _
  | .importD .. :: _, _ | .includeD .. :: _, _ => by
    rw [Spec.PureText.choice] <;> first | exact only_done _ | nofun
end

end

variable {fs : List Spec.PureText.Fn} {C : Spec.Funs.Calls} {G : Look} {esc : Bool}
  (hA : ∀ e f args, C.callee e = some (f, args) → ∀ L x, args L = .error x → X x)
  (hB : ∀ d args x, C.bind d args = .error x → X x) (hR : X .recursion)

include hX hA in
theorem only_with {m : Str → List Val → Shown Unit} (hm : ∀ f args, Only X (m f args)) (ds : List Spec.TextTree.Dir)
    (ρ : Vars) : Only X (dirs (pyWith fs C py m) G esc m ds ρ) := by
  refine only_dirs (py := pyWith fs C py m) (fun x h => hX x ?_) (fun e q h L => ?_) hm ds ρ
  · cases h with
    | eval e L h => exact .eval e L h
    | iter e L h => exact .iter e L h
    | block e L h => exact .block e L h
    | attrs e L h => exact .attrs e L h
  · unfold pyWith at h
    dsimp only at h
    obtain ⟨⟨f, args⟩, hc, h⟩ := Option.bind_eq_some_iff.1 h
    obtain ⟨d, -, rfl⟩ := Option.map_eq_some_iff.1 h
    exact only_next (only_get (hA e f args hc L)) fun _ => hm _ _

include hX hA hB hR in
theorem only_meaning : ∀ n f args, Only X (Spec.PureText.meaning fs C py G esc n f args)
  | 0, _, _ => only_raise hR
  | n + 1, f, args => by
    rw [Spec.PureText.meaning]
    split
    · exact only_done _
    · exact only_next (only_get (hB _ _)) fun ρ => only_next (only_with hX hA (only_meaning n) _ ρ) fun _ => only_done _

include hX hA hB hR in
/-- A text template. -/
theorem only_shown_text {t : Spec.TextSem.Template} : ∀ n, Only X (Spec.PureText.shown C py G t n)
  | 0 => only_raise hR
  | n + 1 => only_next (only_with hX hA (only_meaning hX hA hB hR n) _ _) fun _ => only_done _

end

end Kajiki.RaisesL
