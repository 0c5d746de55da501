import Verif.Lemmas.Accept
import Verif.Lemmas.Codegen
import Verif.Model.Program

/-!
# Which documents give acceptable code

For documents with directives in the right places, the generated code is acceptable to Python if and only if no
directive is without content.
-/

namespace Kajiki.DocComp
open Kajiki.Spec.DocSem Kajiki.Spec.Accept Kajiki.XmlComp
open Kajiki.Spec.Code (Follow writesLines placedOne placedTmpl)

/-! ## Lists of nodes -/

/-- What may follow several nodes. -/
def flow : Follow → List Ir → Follow
  | k, [] => k
  | k, x :: xs => flow (Spec.Code.after k x) xs

theorem flow_append (a b : List Ir) : ∀ k, flow k (a ++ b) = flow (flow k a) b := by
  induction a with
  | nil => intro k; rfl
  | cons x a ih => intro k; exact ih _

theorem fits_append (a b : List Ir) : ∀ k, Spec.Code.placed k (a ++ b) =
    (Spec.Code.placed k a && Spec.Code.placed (flow k a) b) := by
  induction a with
  | nil => intro k; rw [List.nil_append, Spec.Code.placed, Bool.true_and, flow]
  | cons x a ih => intro k; rw [List.cons_append, Spec.Code.placed, Spec.Code.placed, ih, Bool.and_assoc, flow]

theorem fits_one (k : Follow) (x : Ir) : Spec.Code.placed k [x] = placedOne k x := by
  rw [Spec.Code.placed, Spec.Code.placed, Bool.and_true]

/-- A node that is acceptable everywhere. -/
def easy (x : Ir) : Prop := (∀ k, placedOne k x = true) ∧ writesLines x = true

theorem fits_easy {xs : List Ir} (h : ∀ x ∈ xs, easy x) : ∀ k, Spec.Code.placed k xs = true := by
  induction xs with
  | nil => intro k; rw [Spec.Code.placed]
  | cons x xs ih =>
    intro k
    rw [Spec.Code.placed, (h x (List.mem_cons_self ..)).1, ih fun y hy => h y (List.mem_cons_of_mem _ hy)]
    rfl

theorem easy_append {a b : List Ir} (h : ∀ x ∈ a, easy x) (h2 : ∀ x ∈ b, easy x) : ∀ x ∈ a ++ b, easy x := by
  intro x hx
  rcases List.mem_append.1 hx with hx | hx
  · exact h x hx
  · exact h2 x hx

theorem easy_cons {a : Ir} {b : List Ir} (h : easy a) (h2 : ∀ x ∈ b, easy x) : ∀ x ∈ a :: b, easy x := by
  intro x hx
  cases hx with
  | head => exact h
  | tail _ hx => exact h2 x hx

theorem easy_nil : ∀ x ∈ ([] : List Ir), easy x := by simp

theorem easy_text (t : Str) (g : Option Str) (l : Nat) : easy (.text t g l) :=
  ⟨fun k => by rw [placedOne] <;> simp, rfl⟩
theorem easy_expr (e : Str) (s : Bool) (l : Nat) : easy (.expr e s l) :=
  ⟨fun k => by rw [placedOne] <;> simp, rfl⟩

theorem easy_piece {m : TextMode} {a : Str ⊕ Str} {x : Ir} (h : PieceNode m a x) : easy x := by
  cases a with
  | inl t =>
    obtain ⟨l, rfl⟩ := h
    unfold textNode
    split
    · exact ⟨fun k => by rw [placedOne] <;> simp, rfl⟩
    · exact easy_text _ _ _
  | inr e =>
    obtain ⟨l, rfl⟩ := h
    exact easy_expr _ _ _

theorem easy_pieces {m : TextMode} {as : List (Str ⊕ Str)} {xs : List Ir} (h : List.Forall₂ (PieceNode m) as xs) :
    ∀ x ∈ xs, easy x := forall₂_right h fun _ _ => easy_piece

theorem any_easy {xs : List Ir} (h : ∀ x ∈ xs, writesLines x = true) : xs.any writesLines = !xs.isEmpty := by
  cases xs with
  | nil => rfl
  | cons x xs => rw [List.any_cons, h x (List.mem_cons_self ..)]; rfl

theorem easy_attrs {c : CEnv} {g : Option Str} {kvs : List (Str × Str)} {xs : List Ir} (h : AttrsC c g kvs xs) :
    ∀ x ∈ xs, easy x :=
  forall₂_right h fun _ _ h => by
    obtain ⟨vs, l, rfl, hv⟩ := h
    have he := easy_pieces hv
    refine ⟨fun k => ?_, rfl⟩
    rw [placedOne, any_easy fun x hx => (he x hx).2, fits_easy he]
    cases vs <;> rfl

theorem easy_dyn {c : CEnv} {g : Option Str} {as : Dict Str} {xs : List Ir} (h : DynC c g as xs) :
    ∀ x ∈ xs, easy x := by
  unfold DynC at h
  split at h
  · subst h; simp
  · obtain ⟨l, rfl⟩ := h
    exact easy_cons ⟨fun k => by rw [placedOne] <;> simp, rfl⟩ easy_nil

theorem easy_mark {c : CEnv} {t : String} {xs : List Ir} (h : MarkC c t xs) : ∀ x ∈ xs, easy x := by
  unfold MarkC at h
  split at h
  · obtain ⟨l, rfl⟩ := h
    exact easy_cons (easy_text _ _ _) easy_nil
  · subst h; simp

theorem easy_end {c : CEnv} {t : Str} {g : Option Str} {xs : List Ir} (h : EndC c t g xs) : ∀ x ∈ xs, easy x := by
  unfold EndC at h
  split at h
  · subst h; simp
  · obtain ⟨l, rfl⟩ := h
    exact easy_cons (easy_text _ _ _) easy_nil

theorem easy_script {py : PyCompile} {ks : List DNode} {xs : List Ir} (h : ScriptC py ks xs) :
    ∀ x ∈ xs, easy x := by
  induction h with
  | nil => simp
  | cdata _ ih => exact ih
  | text h _ ih =>
    refine easy_append ?_ ih
    refine forall₂_right (Q := fun x => easy x) h fun a b h => ?_
    cases a <;> obtain ⟨l, rfl⟩ := h
    · exact easy_text _ _ _
    · exact easy_expr _ _ _

/-! ## Every node writes lines -/

theorem lines_append {a b : List Ir} (h : ∀ x ∈ a, writesLines x = true) (h2 : ∀ x ∈ b, writesLines x = true) :
    ∀ x ∈ a ++ b, writesLines x = true := by
  intro x hx
  rcases List.mem_append.1 hx with hx | hx
  · exact h x hx
  · exact h2 x hx

theorem lines_cons {a : Ir} {b : List Ir} (h : writesLines a = true) (h2 : ∀ x ∈ b, writesLines x = true) :
    ∀ x ∈ a :: b, writesLines x = true := by
  intro x hx
  cases hx with
  | head => exact h
  | tail _ hx => exact h2 x hx

theorem lines_nil : ∀ x ∈ ([] : List Ir), writesLines x = true := by simp

theorem lines_easy {xs : List Ir} (h : ∀ x ∈ xs, easy x) : ∀ x ∈ xs, writesLines x = true := fun x hx => (h x hx).2

mutual
theorem node_lines {c : CEnv} {p : Place} {tag : Str} {x : DNode} {ys : List Ir} {fs : Dict (List Ir)}
    (h : NodeC c p tag x ys fs) : ∀ y ∈ ys, writesLines y = true := by
  cases h with
  | text h => exact lines_easy (easy_pieces h)
  | cdata h => exact lines_easy (easy_pieces h)
  | hidden h => exact lines_nil
  | comment h => exact lines_cons rfl lines_nil
  | «module» h => exact lines_nil
  | pi h h2 =>
    refine lines_cons ?_ lines_nil
    revert h2
    generalize (pyLines (strip _)).2 = ls
    intro h2
    cases ls with
    | nil => exact absurd rfl h2
    | cons => rfl
  | auto ha hk hb =>
    cases hb with
    | child => exact lines_nil
    | here => exact lines_cons rfl lines_nil
  | block ha hd hk hb =>
    cases hb with
    | child => exact lines_nil
    | here => exact lines_cons rfl lines_nil
  | content ha hd h1 h2 h3 =>
    exact lines_append (lines_cons rfl (lines_append (lines_easy (easy_attrs h1)) (lines_easy (easy_dyn h2))))
      (lines_cons rfl (lines_cons rfl (lines_cons rfl lines_nil)))
  | empty ha hd h1 h2 h3 =>
    exact lines_append (lines_cons rfl (lines_append (lines_easy (easy_attrs h1)) (lines_easy (easy_dyn h2))))
      (lines_cons rfl lines_nil)
  | script ha hd h1 h2 h3 h4 h5 h6 h7 h8 h9 =>
    exact lines_append (lines_cons rfl (lines_append (lines_easy (easy_attrs h1)) (lines_easy (easy_dyn h2))))
      (lines_cons rfl (lines_easy (easy_append (easy_append (easy_append (easy_mark h7) (easy_script h6))
        (easy_mark h8)) (easy_end h9))))
  | elem ha hd h1 h2 h3 h4 h5 hk he =>
    exact lines_append (lines_cons rfl (lines_append (lines_easy (easy_attrs h1)) (lines_easy (easy_dyn h2))))
      (lines_cons rfl (lines_append (kids_lines hk) (lines_easy (easy_end he))))
  | ext ha hd hk => exact lines_cons rfl (kids_lines hk)
  | defn ha hd hi hk => exact lines_nil
  | nop ha hd hk => exact kids_lines hk
  | _ => exact lines_cons rfl lines_nil

theorem kids_lines {c : CEnv} {p : Place} {raw : Bool} {tag : Str} {xs : List DNode} {ys : List Ir}
    {fs : Dict (List Ir)} (h : KidsC c p raw tag xs ys fs) : ∀ y ∈ ys, writesLines y = true := by
  cases h with
  | nil => exact lines_nil
  | raw h => exact lines_cons rfl (kids_lines h)
  | cons h0 h1 h2 => exact lines_append (node_lines h1) (kids_lines h2)
end

/-! ## The code is acceptable -/

/-- What may follow in a `py:switch`. -/
def followOf : Sw → Follow
  | .cases => .elifOrElse
  | _ => .nothing

theorem dirOf_if : dirOf "py:if".toList = some .ifD := by decide +kernel

/-- After a `py:if` there may be an `else`. -/
theorem flow_if {c : CEnv} {p : Place} {tag : Str} {x : DNode} {ys : List Ir} {fs : Dict (List Ir)}
    (h : NodeC c p tag x ys fs) {sw : Sw} {prev : Str} (hp : (placed c.opts sw prev x).isSome = true)
    (ht : tagOf x = "py:if".toList) (k : Follow) : flow k ys = .elifOrElse := by
  have no_tag : ¬ ([] : Str) = "py:if".toList := by decide +kernel
  cases h with
  | ifD ha hd hk => rfl
  | @auto _ _ t _ _ _ _ _ _ _ ha hk hb =>
    unfold placed at hp
    rw [if_pos ha] at hp
    have : "py:".toList.isPrefixOf t = true := by
      have h : t = "py:if".toList := ht
      rw [h]
      decide +kernel
    rw [this] at hp
    simp at hp
  | text => exact absurd ht no_tag
  | cdata => exact absurd ht no_tag
  | hidden => exact absurd ht no_tag
  | comment => exact absurd ht no_tag
  | «module» => exact absurd ht no_tag
  | pi => exact absurd ht no_tag
  | _ ha hd =>
    simp only [tagOf] at ht
    rw [ht, dirOf_if] at hd
    cases hd

theorem filled_dir {c : CEnv} {p : Place} {t : Str} {as : Dict Str} {l : Nat} {ks : List DNode} {d : Dir}
    (ha : auto c.opts t as = false) (hd : dirOf t = some d) :
    filled c p (.elem t as l ks) = match d with
    | .replace => true
    | .imp => true
    | .incl => true
    | .block => true
    | .ext => filledAll c p.ext ks
    | .defn => !p.inDef || filledAll c p.fn ks
    | .withD => filledAll c p ks
    | .switchD => filledAll c p ks
    | .nop => filledAll c p ks
    | _ => !silentAll c p ks && filledAll c p ks := by
  unfold filled
  rw [ha, Bool.false_or]
  simp only [hd]
  cases d <;> rfl

theorem filled_none {c : CEnv} {p : Place} {t : Str} {as : Dict Str} {l : Nat} {ks : List DNode}
    (ha : auto c.opts t as = false) (hd : dirOf t = none) :
    filled c p (.elem t as l ks) = (ownContent c.opts t as || filledAll c p ks) := by
  unfold filled
  rw [ha, Bool.false_or]
  simp only [hd]

theorem no_prev {P : Prop} (h : ([] : Str) = "py:if".toList) : P := absurd h (by decide +kernel)

theorem body_code {c : CEnv} {p : Place} {t : Str} {ks : List DNode} {b : List Ir} {fs : Dict (List Ir)}
    (hk : KidsC c p false t ks b fs) (hp : (placedAll c.opts .no [] ks).isSome = true)
    (h : Spec.Code.placed .nothing b = filledAll c p ks) :
    (b.any writesLines && Spec.Code.placed .nothing b) = (!silentAll c p ks && filledAll c p ks) := by
  rw [any_easy (kids_lines hk), kids_silent hk hp, h]

theorem unless_empty {b : List Ir} {q : Bool} (h : Spec.Code.placed .nothing b = q) :
    (b.isEmpty || (!b.isEmpty && Spec.Code.placed .nothing b)) = q := by
  cases b with
  | nil => rw [Spec.Code.placed] at h; exact h
  | cons x b => exact h

mutual
theorem node_code {c : CEnv} {p : Place} {tag : Str} {x : DNode} {ys : List Ir} {fs : Dict (List Ir)}
    (h : NodeC c p tag x ys fs) {prev : Str} (hp : (placed c.opts .no prev x).isSome = true) (k : Follow)
    (hprev : prev = "py:if".toList → k = .elifOrElse) : Spec.Code.placed k ys = filled c p x := by
  cases h with
  | text h => rw [filled, fits_easy (easy_pieces h)]; simp
  | cdata h => rw [filled, fits_easy (easy_pieces h)]; simp
  | hidden h => rw [filled, Spec.Code.placed]; simp
  | comment h => rw [filled, fits_easy (easy_cons (easy_text _ _ _) easy_nil)]; simp
  | «module» h => rw [filled, Spec.Code.placed]; simp
  | pi h => rw [filled, fits_one, placedOne] <;> simp
  | auto ha hk hb =>
    rw [filled, ha, Bool.true_or]
    cases hb with
    | child => rw [Spec.Code.placed]
    | here => exact fits_easy (easy_cons (easy_expr _ _ _) easy_nil) _
  | block ha hd hk hb =>
    rw [filled_dir ha hd]
    cases hb with
    | child => rw [Spec.Code.placed]
    | here => exact fits_easy (easy_cons (easy_expr _ _ _) easy_nil) _
  | @content _ _ t as _ _ _ _ _ _ _ _ ha hd h1 h2 h3 =>
    have hc : ownContent c.opts t as = true := by
      unfold ownContent
      rw [← attr_plain c.opts _ _ _ (by decide +kernel), h3]
      rfl
    rw [filled_none ha hd, hc, Bool.true_or]
    exact fits_easy (easy_append (easy_cons (easy_text _ _ _) (easy_append (easy_attrs h1) (easy_dyn h2)))
      (easy_cons (easy_text _ _ _) (easy_cons (easy_expr _ _ _) (easy_cons (easy_text _ _ _) easy_nil)))) _
  | empty ha hd h1 h2 h3 =>
    rw [filled_none ha hd, filledAll, Bool.or_true]
    exact fits_easy (easy_append (easy_cons (easy_text _ _ _) (easy_append (easy_attrs h1) (easy_dyn h2)))
      (easy_cons (easy_text _ _ _) easy_nil)) _
  | @script _ _ t as _ _ _ _ _ _ _ _ _ _ ha hd h1 h2 h3 h4 h5 h6 h7 h8 h9 =>
    have hc : ownContent c.opts t as = true := by unfold ownContent; rw [h5, Bool.or_true]
    rw [filled_none ha hd, hc, Bool.true_or]
    exact fits_easy (easy_append (easy_cons (easy_text _ _ _) (easy_append (easy_attrs h1) (easy_dyn h2)))
      (easy_cons (easy_text _ _ _) (easy_append (easy_append (easy_append (easy_mark h7) (easy_script h6))
        (easy_mark h8)) (easy_end h9)))) _
  | @elem _ _ t as _ _ _ _ _ _ _ _ _ ha hd h1 h2 h3 _ h5 hk he =>
    have hc : ownContent c.opts t as = false := by
      unfold ownContent
      rw [h5, ← attr_plain c.opts _ _ _ (by decide +kernel), h3]
      rfl
    rw [filled_none ha hd, hc, Bool.false_or, fits_append,
      fits_easy (easy_append (easy_cons (easy_text _ _ _) (easy_attrs h1)) (easy_dyn h2)), Bool.true_and,
      fits_append, fits_easy (easy_end he), Bool.and_true, Spec.Code.placed, (easy_text _ _ _).1, Bool.true_and,
      kids_code hk (placed_none hp ha hd hc) _ no_prev]
  | replace ha hd => rw [filled_dir ha hd]; exact fits_easy (easy_cons (easy_expr _ _ _) easy_nil) _
  | imp ha hd => rw [filled_dir ha hd, fits_one, placedOne] <;> simp
  | incl ha hd => rw [filled_dir ha hd, fits_one, placedOne] <;> simp
  | ext ha hd hk =>
    rw [filled_dir ha hd, Spec.Code.placed, placedOne,
      kids_code hk (placed_dir hp ha hd (by simp) (by simp) (by simp) (by simp) (by simp)) _ no_prev] <;> simp
  | inner ha hd hi hk =>
    have hp' := placed_dir hp ha hd (by simp) (by simp) (by simp) (by simp) (by simp)
    rw [filled_dir ha hd, fits_one, placedOne, hi, any_easy (kids_lines hk)]
    exact unless_empty (kids_code hk hp' .nothing no_prev)
  | defn ha hd hi hk => rw [filled_dir ha hd, hi, Spec.Code.placed]; rfl
  | call ha hd hk =>
    have hp' := placed_dir hp ha hd (by simp) (by simp) (by simp) (by simp) (by simp)
    rw [filled_dir ha hd, fits_one, placedOne,
      body_code hk hp' (kids_code hk hp' .nothing no_prev)]
  | forD ha hd hk =>
    have hp' := placed_dir hp ha hd (by simp) (by simp) (by simp) (by simp) (by simp)
    rw [filled_dir ha hd, fits_one, placedOne,
      body_code hk hp' (kids_code hk hp' .nothing no_prev)]
  | withD ha hd hk =>
    rw [filled_dir ha hd, fits_one, placedOne,
      kids_code hk (placed_dir hp ha hd (by simp) (by simp) (by simp) (by simp) (by simp)) .nothing no_prev]
  | switchD ha hd hk hb =>
    rw [filled_dir ha hd, fits_one, placedOne]
    rw [switchBody_eq] at hb
    split at hb
    · next hall =>
      cases hb
      obtain ⟨sw', hs⟩ := Option.isSome_iff_exists.1 (placed_switch hp ha hd)
      exact (choices_code hk hs (by simp) hall).1
    · cases hb
  | caseD ha hd hk => exact (placed_case_no hp ha hd).elim
  | ifD ha hd hk =>
    have hp' := placed_dir hp ha hd (by simp) (by simp) (by simp) (by simp) (by simp)
    rw [filled_dir ha hd, fits_one, placedOne,
      body_code hk hp' (kids_code hk hp' .nothing no_prev)]
  | elseD ha hd hk =>
    have hp' := placed_dir hp ha hd (by simp) (by simp) (by simp) (by simp) (by simp)
    rw [filled_dir ha hd, fits_one, placedOne,
      body_code hk hp' (kids_code hk hp' .nothing no_prev),
      hprev (placed_else hp ha hd)]
    rfl
  | nop ha hd hk =>
    rw [placed_nop ha hd] at hp
    rw [filled_dir ha hd]
    exact kids_code hk hp k no_prev

theorem kids_code {c : CEnv} {p : Place} {raw : Bool} {tag : Str} {xs : List DNode} {ys : List Ir}
    {fs : Dict (List Ir)} (h : KidsC c p raw tag xs ys fs) {prev : Str}
    (hp : (placedAll c.opts .no prev xs).isSome = true) (k : Follow)
    (hprev : prev = "py:if".toList → k = .elifOrElse) : Spec.Code.placed k ys = filledAll c p xs := by
  cases h with
  | nil => rw [filledAll, Spec.Code.placed]
  | raw h =>
    obtain ⟨sw', hp1, hp2⟩ := placedAll_cons hp
    have := placed_no hp1
    subst this
    rw [filledAll, Spec.Code.placed, filled, after, (easy_text _ _ _).1, Bool.true_and, Bool.true_and]
    · exact kids_code h hp2 _ no_prev
    · simp
    · simp
  | cons h0 h1 h2 =>
    obtain ⟨sw', hp1, hp2⟩ := placedAll_cons hp
    have := placed_no hp1
    subst this
    rw [filledAll, fits_append, node_code h1 (isSome_of_eq hp1) k hprev,
      kids_code h2 hp2 _ fun ht => flow_if h1 (isSome_of_eq hp1) ht k]

theorem choice_code {c : CEnv} {p : Place} {tag : Str} {x : DNode} {ys : List Ir} {fs : Dict (List Ir)}
    (h : NodeC c p tag x ys fs) {sw sw' : Sw} {prev : Str} (hp : placed c.opts sw prev x = some sw')
    (hsw : sw ≠ .no) (hall : ys.all swOk = true) :
    Spec.Code.placed (followOf sw) (ys.filter notText) = filled c p x ∧
      flow (followOf sw) (ys.filter notText) = followOf sw' ∧ sw' ≠ .no := by
  have none : ∀ {sw'}, some sw = some sw' → Spec.Code.placed (followOf sw) [] = true ∧
      flow (followOf sw) [] = followOf sw' ∧ sw' ≠ .no := by
    intro sw' h
    cases h
    exact ⟨by rw [Spec.Code.placed], rfl, hsw⟩
  cases h with
  | text h =>
    rw [placed] at hp
    · rw [filter_pieces h hall, filled]
      · exact none hp
      · simp
    · simp
  | cdata h =>
    rw [placed] at hp
    · rw [filter_pieces h hall, filled]
      · exact none hp
      · simp
    · simp
  | hidden h =>
    rw [placed] at hp
    · rw [filled]
      · exact none hp
      · simp
    · simp
  | comment h =>
    rw [placed] at hp
    · rw [filled]
      · exact none hp
      · simp
    · simp
  | «module» h =>
    rw [placed] at hp
    · rw [filled]
      · exact none hp
      · simp
    · simp
  | pi h => simp [swOk] at hall
  | auto ha hk hb =>
    cases hb with
    | child hc =>
      unfold placed at hp
      rw [if_pos ha] at hp
      split at hp
      · rw [filled, ha]; exact none hp
      · cases hp
    | here hc => simp [swOk] at hall
  | block ha hd hk hb =>
    cases hb with
    | child hc =>
      unfold placed at hp
      rw [if_neg (by rw [ha]; exact Bool.false_ne_true), hd] at hp
      simp only at hp
      split at hp
      · rw [filled_dir ha hd]; exact none hp
      · cases hp
    | here hc => simp [swOk] at hall
  | content ha hd h1 h2 h3 =>
    simp only [List.cons_append, List.all_cons, Bool.and_eq_true, swOk, strip_lt] at hall
    cases hall.1
  | empty ha hd h1 h2 h3 =>
    simp only [List.cons_append, List.all_cons, Bool.and_eq_true, swOk, strip_lt] at hall
    cases hall.1
  | script ha hd h1 h2 h3 h4 h5 h6 h7 h8 h9 =>
    simp only [List.cons_append, List.all_cons, Bool.and_eq_true, swOk, strip_lt] at hall
    cases hall.1
  | elem ha hd h1 h2 h3 h4 h5 h6 h7 =>
    simp only [List.cons_append, List.all_cons, Bool.and_eq_true, swOk, strip_lt] at hall
    cases hall.1
  | defn ha hd hi hk =>
    unfold placed at hp
    rw [if_neg (by rw [ha]; exact Bool.false_ne_true), hd] at hp
    simp only at hp
    split at hp
    · rw [filled_dir ha hd, hi]; exact none hp
    · cases hp
  | caseD ha hd hk =>
    have hp' := placed_dir (isSome_of_eq hp) ha hd (by simp) (by simp) (by simp) (by simp) (by simp)
    have hk' := body_code hk hp' (kids_code hk hp' .nothing no_prev)
    unfold placed at hp
    rw [if_neg (by rw [ha]; exact Bool.false_ne_true), hd] at hp
    simp only at hp
    split at hp
    · next hs =>
      cases hp
      rw [Bool.and_eq_true, decide_eq_true_eq] at hs
      obtain ⟨rfl, hs⟩ := hs
      refine ⟨?_, rfl, by simp⟩
      show Spec.Code.placed _ [.caseN _ _ _] = _
      rw [filled_dir ha hd, fits_one, placedOne, hk']
      rfl
    · cases hp
  | elseD ha hd hk =>
    have hp' := placed_dir (isSome_of_eq hp) ha hd (by simp) (by simp) (by simp) (by simp) (by simp)
    have hk' := body_code hk hp' (kids_code hk hp' .nothing no_prev)
    unfold placed at hp
    rw [if_neg (by rw [ha]; exact Bool.false_ne_true), hd] at hp
    simp only at hp
    rw [if_pos hp'] at hp
    cases sw with
    | no => exact absurd rfl hsw
    | cases =>
      cases hp
      refine ⟨?_, rfl, by simp⟩
      show Spec.Code.placed _ [.elseN _ _] = _
      rw [filled_dir ha hd, fits_one, placedOne, hk']
      rfl
    | done => cases hp
  | nop ha hd hk =>
    rw [placed_nop ha hd] at hp
    rw [filled_dir ha hd]
    exact choices_code hk hp hsw hall
  | _ => simp [swOk] at hall

theorem choices_code {c : CEnv} {p : Place} {tag : Str} {xs : List DNode} {ys : List Ir}
    {fs : Dict (List Ir)} (h : KidsC c p false tag xs ys fs) {sw sw' : Sw} {prev : Str}
    (hp : placedAll c.opts sw prev xs = some sw') (hsw : sw ≠ .no) (hall : ys.all swOk = true) :
    Spec.Code.placed (followOf sw) (ys.filter notText) = filledAll c p xs ∧
      flow (followOf sw) (ys.filter notText) = followOf sw' ∧ sw' ≠ .no := by
  cases h with
  | nil =>
    rw [placedAll] at hp
    cases hp
    exact ⟨by rw [filledAll, List.filter_nil, Spec.Code.placed], rfl, hsw⟩
  | cons h0 h1 h2 =>
    rw [placedAll] at hp
    obtain ⟨sw1, hp1, hp2⟩ := Option.bind_eq_some_iff.1 hp
    rw [List.all_append, Bool.and_eq_true] at hall
    rw [List.filter_append, fits_append, flow_append, filledAll]
    obtain ⟨a1, a2, a3⟩ := choice_code h1 hp1 hsw hall.1
    rw [a1, a2]
    obtain ⟨b1, b2, b3⟩ := choices_code h2 hp2 a3 hall.2
    exact ⟨by rw [b1], b2, b3⟩
end

theorem fits_lines {b : List Ir} {q : Bool} (hl : ∀ y ∈ b, writesLines y = true)
    (h : Spec.Code.placed .nothing b = q) :
    (b.isEmpty || (b.any writesLines && Spec.Code.placed .nothing b)) = q := by
  rw [any_easy hl]
  exact unless_empty h

/-- The body of a function is acceptable. -/
theorem part_code {b : List Ir} {x : Part} (h : BodyR b x) :
    (b.isEmpty || (b.any writesLines && Spec.Code.placed .nothing b)) = partFilled x := by
  cases x with
  | main c dt root =>
    obtain ⟨ys, fs, l, hn, hp, rfl⟩ := h
    have he : ∀ x ∈ (if dt.isEmpty then [] else [.text dt none l] : List Ir), easy x := by
      split
      · exact easy_nil
      · exact easy_cons (easy_text _ _ _) easy_nil
    refine fits_lines (lines_append (lines_easy he) (node_lines hn)) ?_
    rw [fits_append, fits_easy he, Bool.true_and]
    exact node_code hn hp _ no_prev
  | body c p tag ks =>
    obtain ⟨fs, hk, hp⟩ := h
    exact fits_lines (kids_lines hk) (kids_code hk hp _ no_prev)
  | block c p tag name ks =>
    obtain ⟨b0, fs, l, hk, hp, rfl⟩ := h
    have h1 := kids_code hk hp .nothing no_prev
    have h2 : ∀ b1 : List Ir, (b1.isEmpty = false) → (∀ y ∈ b1, writesLines y = true) →
        Spec.Code.placed .nothing b1 = filledAll c p ks → ∀ (b : Bool) (ls : List Str),
        (let b := (if b then [.python ls l] else []) ++ b1
        (b.isEmpty || (b.any writesLines && Spec.Code.placed .nothing b))) = filledAll c p ks := by
      intro b1 hne hl h b ls
      simp only
      have he : ∀ a : List Ir, (a ++ b1).isEmpty = false := by
        intro a
        cases a with
        | nil => exact hne
        | cons => rfl
      rw [he, Bool.false_or, List.any_append, any_easy hl, hne, fits_append]
      cases b with
      | false => rw [if_neg Bool.false_ne_true, Spec.Code.placed, flow, h]; simp
      | true =>
        have : Spec.Code.placed .nothing [.python ls l] = true := by rw [fits_one, placedOne] <;> simp
        rw [if_pos rfl, this]
        have : flow .nothing [.python ls l] = .nothing := by cases ls <;> rfl
        rw [this, h]
        simp
    unfold partFilled
    cases b0 with
    | nil =>
      refine h2 _ rfl (lines_cons rfl lines_nil) ?_ _ _
      rw [← h1, fits_one, Spec.Code.placed, placedOne] <;> simp
    | cons y b0 => exact h2 (y :: b0) rfl (kids_lines hk) h1 _ _

/-- The generated code of a compiled document is acceptable if and only if no directive is without content. -/
theorem template_code {t : Template} {u : Tmpl} (h : compileDoc t.conf t.doc = .ok u) (hp : t.placed = true) :
    placedTmpl u = Template.filled t := by
  have hr := (template_rel h hp).1
  have hne : u.defs ≠ [] := by
    unfold compileDoc at h
    split at h
    · split at h
      · cases h
      · cases h
        simp only [ne_eq, List.map_eq_nil_iff]
        rename_i s _
        cases s.funs with
        | nil => simp [Dict.set]
        | cons f fs => unfold Dict.set; split <;> simp
    · cases h
  have : ∀ {ds : List Def} {fs : List (Str × Part)}, FunsR (ds.map fun d => (d.decl, d.body)) fs →
      (ds.all fun d => d.body.isEmpty || (d.body.any writesLines && Spec.Code.placed .nothing d.body)) =
        fs.all fun f => partFilled f.2 := by
    intro ds
    induction ds with
    | nil => intro fs h; cases h; rfl
    | cons d ds ih =>
      intro fs h
      cases h with
      | cons h1 h2 => rw [List.all_cons, List.all_cons, ih h2, part_code h1.2]
  unfold placedTmpl Template.filled
  rw [this hr]
  cases hd : u.defs with
  | nil => exact absurd hd hne
  | cons => rfl

/-- The compiler accepts a document if and only if its directives are complete. -/
theorem template_acc {t : Template} (hk : Template.known t = true) :
    (∃ u, compileDoc t.conf t.doc = .ok u) ↔ Template.accepted t = true := by
  unfold Template.known at hk
  unfold Template.accepted
  cases hr : t.root? with
  | none => rw [hr] at hk; cases hk
  | some root =>
    rw [hr] at hk
    have hroot : (t.doc.kids.filter fun n => !isComment n) = [root] := by
      rw [root_eq] at hr
      split at hr
      · next h => cases hr; exact h
      · cases hr
    have := acc_node t.conf ⟨none, false, []⟩ .root root hk .start ⟨rfl, rfl, rfl⟩
    unfold compileDoc
    rw [hroot]
    simp only at this ⊢
    split at this
    · next ha =>
      obtain ⟨ys, s', h1, _⟩ := this
      rw [h1]
      exact ⟨fun _ => ha, fun _ => ⟨_, rfl⟩⟩
    · next ha =>
      obtain ⟨e, he⟩ := this
      rw [he]
      exact ⟨fun ⟨u, hu⟩ => (by cases hu), fun h => absurd h ha⟩

end Kajiki.DocComp
