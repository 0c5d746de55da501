import Verif.Lemmas.TreeFuns
import Verif.Lemmas.WellFormedDoc
import Verif.Spec.TreeOrigin

/-! Trees have only elements of templates. -/

namespace Kajiki.Trees
open Kajiki.Spec.TreeSem Kajiki.Spec.TreeOrigin
open Kajiki.Spec.DocSem (attr plainAttrs void script dirOf blockName Template)
open Kajiki.Spec.Reader (Tree joined)
open Kajiki.Spec.Pure (Look Py Vars)
open Kajiki.Spec.Funs (Fn Level Calls means fnAt)

variable {L : List DNode} {α β : Type}

theorem madeAll_append {x y : List Tree} (hx : MadeAll L x) (hy : MadeAll L y) : MadeAll L (x ++ y) := by
  induction x with
  | nil => exact hy
  | cons a x ih => exact ⟨hx.1, ih hx.2⟩

theorem madeAll_joined {x : List Tree} (hx : MadeAll L x) : MadeAll L (joined x) := by
  induction x with
  | nil => exact hx
  | cons a x ih =>
    have ih := ih hx.2
    cases a with
    | elem t as kids => exact ⟨hx.1, ih⟩
    | comment t => exact ⟨hx.1, ih⟩
    | text t =>
      unfold joined
      split
      · next u ys h => rw [h] at ih; exact ⟨trivial, ih.2⟩
      · next h =>
        split
        · exact ih
        · exact ⟨trivial, ih⟩

/-- All that grows is from these nodes. -/
def From (L : List DNode) (g : Grown α) : Prop := ∀ ts, g.trees = some ts → MadeAll L ts

theorem from_put {ts : Option (List Tree)} (h : ∀ t, ts = some t → MadeAll L t) : From L (.put ts) := h

theorem from_get (r : Except Err α) : From L (.get r) := fun ts h => by cases h; trivial

theorem from_done (a : α) : From L (.done a) := fun ts h => by cases h; trivial

theorem from_next' {m : Grown α} {f : α → Grown β} (hm : From L m) (hf : ∀ a, m.res = .ok a → From L (f a)) :
    From L (m.next f) := by
  intro ts h
  unfold Grown.next at h
  split at h
  · next a ha =>
    simp only [Option.bind_eq_some_iff, Option.map_eq_some_iff] at h
    obtain ⟨x, hx, y, hy, rfl⟩ := h
    exact madeAll_append (hm x hx) (hf a ha y hy)
  · exact hm ts h

theorem from_next {m : Grown α} {f : α → Grown β} (hm : From L m) (hf : ∀ a, From L (f a)) : From L (m.next f) :=
  from_next' hm fun a _ => hf a

theorem from_each {γ : Type} {f : γ → Grown Unit} (hf : ∀ a, From L (f a)) : ∀ l, From L (Grown.each f l)
  | [] => from_done ()
  | a :: l => from_next (hf a) fun _ => from_each hf l

theorem from_only {ok : Bool} {m : Grown α} (hm : From L m) : From L (m.only ok) := by
  intro ts h
  unfold Grown.only at h
  cases ok with
  | true => exact hm ts h
  | false => cases h

theorem from_keeping {ρ : Vars} {m : Grown Unit} (hm : From L m) : From L (keeping ρ m) :=
  from_next hm fun _ => from_done ρ

theorem from_loop {f : Vars → Grown Vars} (hf : ∀ ρ, From L (f ρ)) : ∀ bs ρ, From L (Spec.TreeSem.loop f bs ρ)
  | [], ρ => from_done ρ
  | _ :: bs, _ => from_next (hf _) fun ρ => from_loop hf bs ρ

variable {F : Format} {py : Py} {calls : Str → Option (Look → Grown Unit)}

theorem from_assign (G : Look) : ∀ vs ρ, From L (assign py G vs ρ)
  | [], ρ => from_done ρ
  | (_, _) :: vs, _ => from_next (from_get _) fun _ => from_assign G vs _

theorem from_steady (G : Look) (attrs : Dict Str) (b : Bool) (ρ : Vars) : From L (steady py G attrs b ρ) :=
  from_next (from_get _) fun _ => from_only (from_done ρ)

variable (hF : ∀ h ts, F.markup h = some ts → MadeAll L ts)
  (hc : ∀ e m, calls e = some m → ∀ look, From L (m look))

include hF in
theorem made_value (v : Val) : ∀ ts, ofValue F v = some ts → MadeAll L ts := by
  intro ts h
  unfold ofValue at h
  split at h
  · exact hF _ _ h
  · cases h; exact ⟨trivial, trivial⟩

include hF hc

theorem from_value (look : Look) (e : Str) : From L (value F py calls look e) := by
  unfold value
  split
  · next m h => exact hc e m h look
  · exact from_next (from_get _) fun v => from_put (made_value hF v)

theorem from_text (c : CEnv) (look : Look) (tag d : Str) : From L (text F py calls c look tag d) := by
  refine from_each (fun x => ?_) _
  cases x with
  | inl t =>
    refine from_put fun ts h => ?_
    simp only [Option.map_eq_some_iff] at h
    obtain ⟨u, -, rfl⟩ := h
    exact ⟨trivial, trivial⟩
  | inr e => exact from_value hF hc look e

omit hF hc

theorem from_script (c : CEnv) (look : Look) (kids : List DNode) : From L (scriptContent F py c look kids) := by
  intro ts h
  unfold scriptContent at h
  simp only [Option.map_eq_some_iff] at h
  obtain ⟨u, -, rfl⟩ := h
  exact ⟨trivial, trivial⟩

theorem attributes_names (c : CEnv) (look : Look) : ∀ (kvs as : List (Str × Str)), attributes py c look kvs = .ok as →
    ∀ kv ∈ as, kv.1 ∈ kvs.map (·.1)
  | [], as, h => by cases h; exact fun _ h => by cases h
  | kv :: kvs, as, h => by
    unfold attributes at h
    split at h
    · cases h
    · cases hr : attributes py c look kvs with
      | error e => rw [hr] at h; cases h
      | ok bs =>
        rw [hr] at h
        cases h
        intro x hx
        rcases List.mem_append.1 hx with hx | hx
        · split at hx
          · cases hx
          · cases List.mem_singleton.1 hx
            exact List.mem_cons_self
        · exact List.mem_cons_of_mem _ (attributes_names c look kvs bs hr x hx)

theorem plainAttrs_names {o : Opts} {t : Str} {as : Dict Str} : ∀ k ∈ (plainAttrs o t as).map (·.1), k ∈ as.map (·.1) := by
  intro k hk
  obtain ⟨kv, h, rfl⟩ := List.mem_map.1 hk
  unfold plainAttrs at h
  split at h
  · exact List.mem_map_of_mem (List.mem_filter.1 h).1
  · exact List.mem_map_of_mem h

/-- The attributes of a start tag are those of the template. -/
theorem startTag_names (c : CEnv) (look : Look) {attrs : Dict Str} {as : List (Str × Str)}
    (h : startTag py c look attrs = .ok (some as)) :
    "py:attrs".toList ∈ attrs.map (·.1) ∨ ∀ kv ∈ as, kv.1 ∈ attrs.map (·.1) := by
  unfold startTag at h
  split at h
  · cases h
  · next bs hb =>
    by_cases he : (attr attrs "py:attrs").isEmpty = true
    · rw [if_pos he] at h
      cases h
      refine .inr fun kv hkv => ?_
      obtain ⟨x, hx, hx'⟩ := List.mem_map.1 (attributes_names c look _ as hb kv hkv)
      rw [← hx']
      exact List.mem_map_of_mem (List.mem_filter.1 ((Wf.sortItems_perm _).subset hx)).1
    · refine .inl ?_
      unfold attr at he
      cases hg : Dict.get attrs "py:attrs".toList with
      | none => rw [hg] at he; exact absurd rfl he
      | some v => exact List.mem_map_of_mem (Wf.get_mem hg)

theorem from_wrap {script : Bool} {tag : Str} {as : Option (List (Str × Str))} {g : Grown α}
    (ha : ∀ bs, as = some bs → HasElem L tag bs) (hg : From L g) : From L (wrap F script tag as g) := by
  intro ts h
  unfold wrap at h
  simp only [Option.bind_eq_some_iff] at h
  obtain ⟨bs, hb, us, hu, h⟩ := h
  split at h
  · cases h
    refine ⟨⟨?_, madeAll_joined (hg us hu)⟩, trivial⟩
    obtain ⟨attrs, ln, kids, h1, h2⟩ := ha bs hb
    refine ⟨attrs, ln, kids, h1, h2.imp id fun h2 kv hkv => ?_⟩
    obtain ⟨x, hx, rfl⟩ := List.mem_map.1 hkv
    exact h2 x hx
  · cases h

/-- All nodes in this one are there. -/
def Has (L : List DNode) (x : DNode) : Prop := ∀ y ∈ inside x, y ∈ L

/-- All nodes in these are there. -/
def HasAll (L : List DNode) (xs : List DNode) : Prop := ∀ y ∈ insideAll xs, y ∈ L

theorem Has.kids {t as ln kids} (h : Has L (.elem t as ln kids)) : HasAll L kids := fun y hy =>
  h y (by unfold inside; exact List.mem_cons_of_mem _ hy)

theorem Has.self {x} (h : Has L x) : x ∈ L := h x (by cases x <;> (unfold inside; exact List.mem_cons_self))

theorem HasAll.head {x xs} (h : HasAll L (x :: xs)) : Has L x := fun y hy =>
  h y (by unfold insideAll; exact List.mem_append_left _ hy)

theorem HasAll.tail {x xs} (h : HasAll L (x :: xs)) : HasAll L xs := fun y hy =>
  h y (by unfold insideAll; exact List.mem_append_right _ hy)

variable {G : Look} {over : Str → Option (Grown Unit)}

section
set_option linter.unusedSectionVars false
variable (ho : ∀ n m, over n = some m → From L m)
include hF hc ho

mutual
theorem from_node (c : CEnv) : ∀ (x : DNode), Has L x → ∀ (els : Vars → Grown Vars), (∀ ρ, From L (els ρ)) → ∀ tag ρ,
    From L (node F py calls G over c els tag x ρ)
  | .text d _ _, _, els, he, tag, ρ => by
    unfold node; exact from_keeping (from_text hF hc _ _ _ _)
  | .cdata d _, _, els, he, tag, ρ => by
    unfold node; exact from_keeping (from_only (from_text hF hc _ _ _ _))
  | .comment d ln, h, els, he, tag, ρ => by
    unfold node
    refine from_keeping (from_put fun ts ht => ?_)
    split at ht
    · cases ht; trivial
    · split at ht
      · cases ht
      · cases ht
        exact ⟨⟨d, ln, h.self, rfl⟩, trivial⟩
  | .pi _ d _, _, els, he, tag, ρ => by
    unfold node
    split
    · exact from_done _
    · exact from_next (from_get _) fun _ => from_done _
  | .elem t as ln kids, h, els, he, tag, ρ => by
    have hk := h.kids
    have ihn := fun raw tag ρ => from_nodes c kids hk raw tag ρ
    unfold node
    cases dirOf t with
    | none =>
      dsimp only
      refine from_next (from_get _) fun b => ?_
      have hcontent : From L ((if !(attr (plainAttrs c.opts t as) "py:content").isEmpty then
          keeping ρ (value F py calls (Spec.Pure.look G ρ) (attr (plainAttrs c.opts t as) "py:content"))
        else if script c.opts t && !(!(attr (plainAttrs c.opts t as) "py:content").isEmpty) && !kids.isEmpty then
          keeping ρ (scriptContent F py c (Spec.Pure.look G ρ) kids)
        else nodes F py calls G over c true t kids ρ).next fun ρ =>
          if Spec.DocSem.html c.mode && void t && !(!(attr (plainAttrs c.opts t as) "py:content").isEmpty) then Grown.done ρ
          else steady py G (plainAttrs c.opts t as) b ρ) := by
        refine from_next ?_ fun ρ => ?_
        · split
          · exact from_keeping (from_value hF hc _ _)
          · split
            · exact from_keeping (from_script _ _ _)
            · exact ihn _ _ _
        · split
          · exact from_done _
          · exact from_steady _ _ _ _
      cases b with
      | false => exact from_only hcontent
      | true =>
        have hst : ∀ bs, startTag py c (Spec.Pure.look G ρ) (plainAttrs c.opts t as) = .ok (some bs) → HasElem L t bs :=
          fun bs hb => ⟨as, ln, kids, h.self, (startTag_names _ _ hb).imp (fun h => plainAttrs_names _ h)
            fun h kv hkv => plainAttrs_names _ (h kv hkv)⟩
        exact from_next' (from_get _) fun bs hbs =>
          from_only (from_wrap (fun cs hcs => hst cs (hcs ▸ hbs)) hcontent)
    | some d =>
      cases d with
      | replace => exact from_keeping (from_value hF hc _ _)
      | forD => exact from_next (from_get _) fun bs => from_loop (fun ρ => ihn _ _ _) _ _
      | withD => exact from_next (from_assign _ _ _) fun σ => from_next (ihn _ _ _) fun _ => from_done _
      | switchD => exact from_next (from_get _) fun v => from_choices c kids hk v _ (fun _ => from_done _) _
      | ifD =>
        refine from_next (from_get _) fun v => ?_
        split
        · exact ihn _ _ _
        · exact he _
      | nop => exact ihn _ _ _
      | block =>
        refine from_keeping ?_
        split
        · next m hm => exact ho _ m hm
        · exact from_next (ihn _ _ _) fun _ => from_done _
      | incl => exact from_keeping (from_only (from_get _))
      | _ => exact from_done _

theorem from_nodes (c : CEnv) : ∀ (xs : List DNode), HasAll L xs → ∀ raw tag ρ,
    From L (nodes F py calls G over c raw tag xs ρ)
  | [], _, raw, tag, ρ => by unfold nodes; exact from_done ρ
  | x :: xs, h, raw, tag, ρ => by
    have h1 := fun els he tag ρ => from_node c x h.head els he tag ρ
    have h2 := fun ρ => from_otherwise c xs h.tail ρ
    have h3 := fun ρ => from_nodes c xs h.tail raw tag ρ
    unfold nodes
    refine from_next ?_ h3
    split
    · exact from_only (from_done _)
    · exact h1 _ h2 _ _

theorem from_otherwise (c : CEnv) : ∀ (xs : List DNode), HasAll L xs → ∀ ρ,
    From L (otherwise F py calls G over c xs ρ)
  | [], _, ρ => by unfold otherwise; exact from_done ρ
  | .elem t as ln kids :: xs, h, ρ => by
    have h1 := fun tag ρ => from_nodes c kids h.head.kids false tag ρ
    unfold otherwise
    split
    · exact h1 _ _
    · exact from_done ρ
  | .text _ _ _ :: _, _, ρ => by unfold otherwise; exact from_done ρ
  | .cdata _ _ :: _, _, ρ => by unfold otherwise; exact from_done ρ
  | .comment _ _ :: _, _, ρ => by unfold otherwise; exact from_done ρ
  | .pi _ _ _ :: _, _, ρ => by unfold otherwise; exact from_done ρ

theorem from_choice (c : CEnv) : ∀ (x : DNode), Has L x → ∀ v (rest : Vars → Grown Vars), (∀ ρ, From L (rest ρ)) → ∀ ρ,
    From L (choice F py calls G over c v rest x ρ)
  | .elem t as ln kids, h, v, rest, hr, ρ => by
    have h1 := fun tag ρ => from_nodes c kids h.kids false tag ρ
    have h2 := fun ρ => from_choices c kids h.kids v rest hr ρ
    unfold choice
    cases dirOf t with
    | none => exact hr ρ
    | some d =>
      cases d with
      | caseD =>
        refine from_next (from_get _) fun u => ?_
        split
        · exact h1 _ _
        · exact hr _
      | elseD => exact h1 _ _
      | nop => exact h2 _
      | _ => exact hr ρ
  | .text _ _ _, _, v, rest, hr, ρ => by unfold choice; exact hr ρ
  | .cdata _ _, _, v, rest, hr, ρ => by unfold choice; exact hr ρ
  | .comment _ _, _, v, rest, hr, ρ => by unfold choice; exact hr ρ
  | .pi _ _ _, _, v, rest, hr, ρ => by unfold choice; exact hr ρ

theorem from_choices (c : CEnv) : ∀ (xs : List DNode), HasAll L xs → ∀ v (rest : Vars → Grown Vars),
    (∀ ρ, From L (rest ρ)) → ∀ ρ, From L (choices F py calls G over c v rest xs ρ)
  | [], _, v, rest, hr, ρ => by unfold choices; exact hr ρ
  | x :: xs, h, v, rest, hr, ρ => by
    have h2 := fun ρ => from_choices c xs h.tail v rest hr ρ
    unfold choices
    exact from_choice c x h.head v _ h2 ρ
end

end

/-! ## Functions -/

theorem fns_has (o : Opts) : (x : DNode) → Has L x → ∀ d ∈ Spec.Funs.fns o x, HasAll L d.kids
  | .text _ _ _, _, d, hd => by unfold Spec.Funs.fns at hd; cases hd
  | .cdata _ _, _, d, hd => by unfold Spec.Funs.fns at hd; cases hd
  | .comment _ _, _, d, hd => by unfold Spec.Funs.fns at hd; cases hd
  | .pi _ _ _, _, d, hd => by unfold Spec.Funs.fns at hd; cases hd
  | .elem t as ln kids, h, d, hd => by
    have hk := h.kids
    have ih := fun d hd => fnsAll_has o kids hk d hd
    unfold Spec.Funs.fns at hd
    cases hdir : dirOf t with
    | none =>
      rw [hdir] at hd
      dsimp only at hd
      split at hd
      · cases hd
      · exact ih d hd
    | some dir =>
      rw [hdir] at hd
      cases dir with
      | replace => cases hd
      | block =>
        rcases List.mem_append.1 hd with hd | hd
        · exact ih d hd
        · cases List.mem_singleton.1 hd; exact hk
      | defn => cases List.mem_singleton.1 hd; exact hk
      | _ => exact ih d hd
where
  fnsAll_has (o : Opts) : (xs : List DNode) → HasAll L xs → ∀ d ∈ Spec.Funs.fnsAll o xs, HasAll L d.kids
    | [], _, d, hd => by unfold Spec.Funs.fnsAll at hd; cases hd
    | x :: xs, h, d, hd => by
      unfold Spec.Funs.fnsAll at hd
      rcases List.mem_append.1 hd with hd | hd
      · exact fns_has o x h.head d hd
      · exact fnsAll_has o xs h.tail d hd

section
variable {ls : List Level} {C : Calls} {G : Nat → Look} {up : Nat → Str → Val} (hl : ∀ l ∈ ls, HasAll L l.kids)

/-- The trees of functions are from these nodes. -/
structure MFrom (L : List DNode) (m : Spec.TreeFuns.Meaning) : Prop where
  fn : ∀ a d args, HasAll L d.kids → From L (m.fn a d args)
  above : ∀ a f args, From L (m.above a f args)

include hl

theorem fnAt_has {a : Nat} {f : Str} {d : Fn} (h : fnAt ls a f = some d) : HasAll L d.kids := by
  unfold fnAt at h
  cases hg : ls[a]? with
  | none => rw [hg] at h; cases h
  | some l =>
    rw [hg] at h
    exact fns_has.fnsAll_has _ _ (hl l (List.mem_of_getElem? hg)) d (List.mem_of_find?_eq_some h)

theorem means_has {a : Nat} {f : Str} {d : Nat × Fn} (h : means ls a f = some d) : HasAll L d.2.kids := by
  unfold means at h
  obtain ⟨b, -, hb⟩ := List.exists_of_findSome?_eq_some h
  simp only [Option.map_eq_some_iff] at hb
  obtain ⟨d', hd, rfl⟩ := hb
  exact fnAt_has hl hd

variable {m : Spec.TreeFuns.Meaning} (hm : MFrom L m)
include hm

theorem calls_from (a : Nat) (block : Option Str) (e : Str) (k : Look → Grown Unit)
    (h : Spec.TreeFuns.calls ls C m a block e = some k) (look : Look) : From L (k look) := by
  unfold Spec.TreeFuns.calls at h
  cases hc : C.callee e with
  | none => rw [hc] at h; cases h
  | some fa =>
    rw [hc] at h
    obtain ⟨f, args⟩ := fa
    dsimp only [Option.bind_some] at h
    split at h
    · cases h
      exact from_next (from_get _) fun _ => hm.above _ _ _
    · split at h
      · cases h
      · simp only [Option.map_eq_some_iff] at h
        obtain ⟨d, hd, rfl⟩ := h
        exact from_next (from_get _) fun _ => hm.fn _ _ _ (means_has hl hd)

theorem inPlace_from (a : Nat) (l : Level) (n : Str) (k : Grown Unit) (h : Spec.TreeFuns.inPlace ls m a l n = some k) :
    From L k := by
  unfold Spec.TreeFuns.inPlace at h
  split at h
  · cases h; exact from_done ()
  · simp only [Option.map_eq_some_iff] at h
    obtain ⟨d, hd, rfl⟩ := h
    exact hm.fn _ _ _ (means_has hl hd)

include hF

theorem content_from (p : Spec.Funs.Meaning) (a : Nat) (l : Level) (block : Option Str)
    {over : Str → Option (Grown Unit)} (ho : ∀ n m, over n = some m → From L m) (tag : Str) {kids : List DNode}
    (hk : HasAll L kids) (ρ : Vars) : From L (Spec.TreeFuns.content F ls C py G p m a l block over tag kids ρ) :=
  from_next (from_nodes hF (fun e k h look => calls_from hl hm a block e k h look) ho _ kids hk _ _ _) fun _ => from_done ()

theorem body_from (p : Spec.Funs.Meaning) (a : Nat) (d : Fn) (hd : HasAll L d.kids) (args : List Val) :
    From L (Spec.TreeFuns.body F ls C py G up p m a d args) := by
  unfold Spec.TreeFuns.body
  split
  · exact from_done ()
  · next l hl' =>
    refine from_next (from_get _) fun ρ => ?_
    cases d with
    | defn decl kids => exact content_from hF hl hm p a l none (inPlace_from hl hm a l) _ hd _
    | block name kids =>
      dsimp only
      split
      · exact content_from hF hl hm p a l _ (fun n k h => by cases h; exact from_done ()) _ hd _
      · exact content_from hF hl hm p a l none (inPlace_from hl hm a l) _ hd _

omit hm

theorem meaning_from (n : Nat) : MFrom L (Spec.TreeFuns.meaning F ls C py G up n) := by
  induction n with
  | zero => exact ⟨fun _ _ _ _ => from_get _, fun _ _ _ => from_get _⟩
  | succ n ih =>
    refine ⟨fun a d args hd => body_from hF hl ih _ a d hd args, fun a f args => ?_⟩
    unfold Spec.TreeFuns.meaning
    dsimp only
    split
    · next d hd => exact body_from hF hl ih _ a d (fnAt_has hl hd) args
    · exact ih.above _ _ _

theorem grownAt_from (n : Nat) : ∀ a, From L (Spec.TreeFuns.grownAt F ls C py G up n a) := by
  induction n with
  | zero => exact fun a => from_get _
  | succ n ih =>
    intro a
    unfold Spec.TreeFuns.grownAt
    split
    · exact from_done ()
    · next l hl' =>
      have hm := meaning_from (C := C) (py := py) (G := G) (up := up) hF hl n
      refine from_next ?_ fun _ => content_from hF hl hm _ a l none (inPlace_from hl hm a l) _
        (hl l (List.mem_of_getElem? hl')) _
      split
      · exact ih _
      · refine from_put fun t ht => ?_
        split at ht <;> cases ht
        · trivial
        · exact ⟨trivial, trivial⟩

end

theorem grown_from (hF : ∀ h ts, F.markup h = some ts → MadeAll L ts) {t : Template} {root : DNode} (h : Has L root) :
    From L (grown F py G t root) := by
  unfold grown
  refine from_next (from_put fun t ht => ?_) fun _ =>
    from_node hF (fun _ _ h => by cases h) (fun _ _ h => by cases h) _ root h _ (fun _ => from_done _) _ _
  split at ht <;> cases ht
  · trivial
  · exact ⟨trivial, trivial⟩

/-! ## HTML tokens -/

mutual
theorem madeToken_flatten : ∀ (t : Tree), Made L t → ∀ k ∈ flatten t, MadeToken L k
  | .elem tag as kids, h, k, hk => by
    have h2 := h.2
    unfold flatten at hk
    rcases List.mem_cons.1 hk with rfl | hk
    · exact h.1
    · rcases List.mem_append.1 hk with hk | hk
      · exact madeToken_flattenAll kids h2 k hk
      · split at hk
        · cases hk
        · cases List.mem_singleton.1 hk
          obtain ⟨attrs, ln, kids, h, -⟩ := h.1
          exact ⟨attrs, ln, kids, h⟩
  | .text t, h, k, hk => by unfold flatten at hk; cases List.mem_singleton.1 hk; trivial
  | .comment t, h, k, hk => by unfold flatten at hk; cases List.mem_singleton.1 hk; exact h

theorem madeToken_flattenAll : ∀ (ts : List Tree), MadeAll L ts → ∀ k ∈ flattenAll ts, MadeToken L k
  | [], _, k, hk => by unfold flattenAll at hk; cases hk
  | x :: xs, h, k, hk => by
    have h1 := h.1
    have h2 := h.2
    rw [flattenAll_cons] at hk
    rcases List.mem_append.1 hk with hk | hk
    · exact madeToken_flatten x h1 k hk
    · exact madeToken_flattenAll xs h2 k hk
end

theorem madeToken_joined : ∀ (ks : List Spec.HtmlReader.Token), (∀ k ∈ ks, MadeToken L k) →
    ∀ k ∈ Spec.HtmlReader.joined ks, MadeToken L k
  | [], _, k, hk => by cases hk
  | x :: ks, h, k, hk => by
    have ih := madeToken_joined ks fun k hk => h k (List.mem_cons_of_mem _ hk)
    have hx := h x List.mem_cons_self
    cases x with
    | chars t =>
      unfold Spec.HtmlReader.joined at hk
      split at hk
      · next u ys he =>
        rw [he] at ih
        rcases List.mem_cons.1 hk with rfl | hk
        · trivial
        · exact ih k (List.mem_cons_of_mem _ hk)
      · split at hk
        · exact ih k hk
        · rcases List.mem_cons.1 hk with rfl | hk
          · trivial
          · exact ih k hk
    | _ =>
      rcases List.mem_cons.1 hk with rfl | hk
      · exact hx
      · exact ih k hk

/-- Reading is the same without markup from values. -/
theorem reading_unmarked {mode : Str} {Rd : Str → List Tree → Prop} (R : Reading F mode Rd) :
    Reading (unmarked F) mode Rd :=
  ⟨R.nil, R.append, R.text, R.value, (fun h => by cases h), R.comment, R.elem, R.empty, R.script⟩

end Kajiki.Trees
