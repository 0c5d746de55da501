import Verif.Lemmas.XmlCompile

/-!
# The nodes of one element
-/

namespace Kajiki.XmlComp
open Kajiki.Spec.XmlCompile

theorem autoblock_no {env : CEnv} {tag : Str} (attrs : Dict Str) (h : tag ∉ env.opts.autoblocks) :
    isAutoblock env tag attrs = .ok (false, attrs) := by
  unfold isAutoblock
  rw [if_neg]
  rwa [List.contains_iff_mem]

theorem lift_bind {α β : Type} (a : α) (f : α → CM β) : CM.bind (CM.lift (.ok a)) f = f a := rfl

theorem node_xml {env : CEnv} {ctx : Ctx} {tag : Str} {attrs : Dict Str} {ln : Nat} {kids : List DNode}
    (hk : kindOf tag = .xml) (ha : tag ∉ env.opts.autoblocks) :
    compileNode env ctx (.elem tag attrs ln kids) =
      annotate ln (compileXml env tag attrs ln kids.isEmpty (contentOf env tag attrs kids)) := by
  simp only [compileNode, autoblock_no attrs ha]
  rw [lift_bind]
  simp only [Bool.false_eq_true, if_false]
  rw [hk]
  rfl

theorem node_kind {env : CEnv} {ctx : Ctx} {tag : Str} {attrs : Dict Str} {ln : Nat} {kids : List DNode}
    (hk : kindOf tag ≠ .xml) (ha : tag ∉ env.opts.autoblocks) :
    compileNode env ctx (.elem tag attrs ln kids) =
      annotate ln (compileKind env ctx attrs kids
        (annotate ln (compileKids env false (some tag) (attrs.has "py:switch".toList) [] kids)) (kindOf tag)) := by
  simp only [compileNode, autoblock_no attrs ha]
  rw [lift_bind]
  simp only [Bool.false_eq_true, if_false]

theorem anno_text (l : Nat) (t : Str) (g : Option Str) : anno l (.text t g 0) = .text t g l := rfl
theorem anno_expr (l : Nat) (c : Str) (b : Bool) : anno l (.expr c b 0) = .expr c b l := rfl

theorem compileAttrs_nodes {env : CEnv} {g : Option Str} {ln : Nat} {as : List (Str × Str)} {xs : List Ir}
    (h : compileAttrs env g ln as = .ok xs) : ∀ x ∈ xs, isAttrNode g x = true := by
  induction as generalizing xs with
  | nil => simp only [compileAttrs, Except.ok.injEq] at h; subst h; simp
  | cons kv as ih =>
    obtain ⟨k, v⟩ := kv
    simp only [compileAttrs] at h
    split at h
    · cases h
    · next vs hv =>
      obtain ⟨ys, hy, rfl⟩ := prepend_ok.1 h
      intro x hx
      rcases List.mem_append.1 hx with hx | hx
      · split at hx
        · cases hx
        · simp only [List.mem_singleton] at hx; subst hx; simp [isAttrNode]
      · exact ih hy x hx

theorem attrsNode_nodes (env : CEnv) (g : Option Str) (attrs : Dict Str) :
    ∀ x ∈ attrsNode env g attrs, isAttrNode g x = true := by
  unfold attrsNode
  simp only
  split
  · simp
  · simp [isAttrNode]

theorem anno_attrNode (l : Nat) (g : Option Str) (x : Ir) : isAttrNode g (anno l x) = isAttrNode g x := by
  unfold anno
  split
  · cases x <;> rfl
  · rfl

/-- The nodes of an ordinary element: the start tag, its attributes, and the rest. -/
theorem xml_nodes {env : CEnv} {ctx : Ctx} {tag : Str} {attrs : Dict Str} {ln : Nat} {kids : List DNode}
    (hk : kindOf tag = .xml) (ha : tag ∉ env.opts.autoblocks) {s t : CState} {xs : List Ir}
    (h : compileNode env ctx (.elem tag attrs ln kids) s = .ok (xs, t)) :
    ∃ as body, (∀ x ∈ as, isAttrNode (stripGuard attrs) x = true) ∧
      compileBody env tag attrs (stripGuard attrs) kids.isEmpty (contentOf env tag attrs kids) s = .ok (body, t) ∧
      xs = .text ('<' :: tag) (stripGuard attrs) ln :: as ++ body.map (anno ln) := by
  rw [node_xml hk ha] at h
  obtain ⟨ys, h1, rfl⟩ := annotate_ok.1 h
  unfold compileXml at h1
  obtain ⟨as, s1, h2, h3⟩ := bind_ok.1 h1
  obtain ⟨h4, h5⟩ := lift_ok.1 h2
  simp only at h4 h5
  subst h5
  obtain ⟨body, s2, h6, h7⟩ := bind_ok.1 h3
  cases pure_ok.1 h7
  refine ⟨(as ++ attrsNode env (stripGuard attrs) attrs).map (anno ln), body, ?_, h6, ?_⟩
  · intro x hx
    obtain ⟨y, hy, rfl⟩ := List.mem_map.1 hx
    rw [anno_attrNode]
    rcases List.mem_append.1 hy with hy | hy
    · exact compileAttrs_nodes h4 y hy
    · exact attrsNode_nodes env _ attrs y hy
  · simp [anno_text]

end Kajiki.XmlComp
