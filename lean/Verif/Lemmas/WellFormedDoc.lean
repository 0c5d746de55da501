import Verif.Lemmas.WellFormed
import Verif.Lemmas.Dom
import Verif.Lemmas.Chain
import Verif.Model.XmlCompile

/-!
# Documents compile to trees of well-formed shape
-/

namespace Kajiki.Wf
open Kajiki.Spec Kajiki.Spec.WellFormed Kajiki.Spec.Sem Kajiki.Spec.Dom

/-! ## Character data -/

/-- The characters of references. -/
def refChars : Str := "ampltgquo;".toList

theorem prefix_cut {w p b : Str} {c : Char} (h : w <+: p ++ c :: b) (hc : c ∉ w) : w <+: p := by
  induction p generalizing w with
  | nil =>
    cases w with
    | nil => exact List.nil_prefix
    | cons x w =>
      rw [List.nil_append, List.cons_prefix_cons] at h
      exact absurd (h.1 ▸ List.mem_cons_self) hc
  | cons y p ih =>
    cases w with
    | nil => exact List.nil_prefix
    | cons x w =>
      rw [List.cons_append, List.cons_prefix_cons] at h
      rw [List.cons_prefix_cons]
      exact ⟨h.1, ih h.2 fun hm => hc (List.mem_cons_of_mem _ hm)⟩

theorem chars_piece {a p b : Str} (h : Chars (a ++ (p ++ b)))
    (hb : ∀ c b', b = c :: b' → c ∉ refChars) : Chars p := by
  refine ⟨fun c hc => h.1 c (by simp [hc]), fun pre post hp => ?_⟩
  have h2 := h.2 (a ++ pre) (post ++ b) (by rw [hp]; simp)
  cases b with
  | nil => simpa using h2
  | cons c b' =>
    have hc := hb c b' rfl
    have cut : ∀ w : Str, (∀ x ∈ w, x ∈ refChars) → w <+: post ++ c :: b' → w <+: post :=
      fun w hw hp => prefix_cut hp fun hm => hc (hw c hm)
    rcases h2 with h2 | h2 | h2 | h2
    · exact .inl (cut _ (by decide) h2)
    · exact .inr (.inl (cut _ (by decide) h2))
    · exact .inr (.inr (.inl (cut _ (by decide) h2)))
    · exact .inr (.inr (.inr (cut _ (by decide) h2)))

theorem chars_append {s t : Str} (h : Chars s) (h2 : Chars t) : Chars (s ++ t) := by
  refine ⟨fun c hc => ?_, fun pre post hp => ?_⟩
  · rcases List.mem_append.1 hc with hc | hc
    · exact h.1 c hc
    · exact h2.1 c hc
  · rcases List.append_eq_append_iff.1 hp with ⟨u, hu, hv⟩ | ⟨u, hu, hv⟩
    · exact h2.2 u post hv
    · cases u with
      | nil =>
        exact h2.2 [] post hv.symm
      | cons c u =>
        rw [List.cons_append, List.cons.injEq] at hv
        obtain ⟨rfl, rfl⟩ := hv
        have h3 := h.2 pre u hu
        have ext : ∀ w : Str, w <+: u → w <+: u ++ t := fun w hw => hw.trans (List.prefix_append _ _)
        exact h3.imp (ext _) (Or.imp (ext _) (Or.imp (ext _) (ext _)))

theorem chars_plain {s : Str} (h : ∀ c ∈ s, c ≠ '<' ∧ c ≠ '>' ∧ c ≠ '&') : Chars s :=
  ⟨fun c hc => ⟨(h c hc).1, (h c hc).2.1⟩, fun pre post hp =>
    absurd rfl (h '&' (by rw [hp]; simp)).2.2⟩

theorem chars_nil : Chars [] := chars_plain (by simp)

theorem chars_space {s : Str} (h : ∀ c ∈ s, isSpace c = true) : Chars s := by
  refine chars_plain fun c hc => ?_
  have := h c hc
  refine ⟨?_, ?_, ?_⟩ <;> rintro rfl <;> exact absurd this (by decide)

theorem chars_ref {w : Str} (h : w = "amp;".toList ∨ w = "lt;".toList ∨ w = "gt;".toList) :
    Chars ('&' :: w) := by
  have hw : ∀ c ∈ w, c ≠ '<' ∧ c ≠ '>' ∧ c ≠ '&' := by rcases h with rfl | rfl | rfl <;> decide
  refine ⟨fun c hc => ?_, fun pre post hp => ?_⟩
  · rcases List.mem_cons.1 hc with rfl | hc
    · decide
    · exact ⟨(hw c hc).1, (hw c hc).2.1⟩
  · cases pre with
    | nil =>
      rw [List.nil_append, List.cons.injEq] at hp
      rw [← hp.2]
      rcases h with rfl | rfl | rfl
      · exact .inl (List.prefix_refl _)
      · exact .inr (.inl (List.prefix_refl _))
      · exact .inr (.inr (.inl (List.prefix_refl _)))
    | cons x pre =>
      rw [List.cons_append, List.cons.injEq] at hp
      exact absurd rfl (hw '&' (by rw [hp.2]; simp)).2.2

theorem chars_sax (s : Str) : Chars (saxEscape s) := by
  induction s with
  | nil => exact chars_nil
  | cons c s ih =>
    have : saxEscape (c :: s) = saxEscapeChar c ++ saxEscape s := by simp [saxEscape]
    rw [this]
    refine chars_append ?_ ih
    unfold saxEscapeChar
    split
    · exact chars_ref (.inl rfl)
    · split
      · exact chars_ref (.inr (.inr rfl))
      · split
        · exact chars_ref (.inr (.inl rfl))
        · next h1 h2 h3 => exact chars_plain (by simp; exact ⟨h3, h2, h1⟩)

/-! ## Texts -/

theorem dollars_start {skip pos : Nat} {s : Str} {a b : Nat} {k : DKind} (h : (a, b, k) ∈ dollars skip pos s) :
    ∃ i, a = pos + i ∧ s[i]? = some '$' := by
  induction s generalizing skip pos with
  | nil => simp [dollars] at h
  | cons c s ih =>
    have step : ∀ skip, (a, b, k) ∈ dollars skip (pos + 1) s → ∃ i, a = pos + i ∧ (c :: s)[i]? = some '$' := by
      intro skip h
      obtain ⟨i, h1, h2⟩ := ih h
      exact ⟨i + 1, by omega, by simpa using h2⟩
    cases skip with
    | succ n => exact step n h
    | zero =>
      simp only [dollars] at h
      split at h
      · next k' len hk =>
        rcases List.mem_cons.1 h with h1 | h1
        · simp only [Prod.mk.injEq] at h1
          refine ⟨0, by omega, ?_⟩
          unfold dollarAt at hk
          split at hk
          · next heq => cases heq; rfl
          · next heq => cases heq; rfl
          · next heq => cases heq; rfl
          · cases hk
        · exact step _ h1
      · exact step _ h

theorem slice_chars {src : Str} (h : Chars src) {a b : Nat} (hab : a ≤ b) (hb : src[b]? = some '$') :
    Chars (slice src a b) := by
  have h1 : src = src.take a ++ (slice src a b ++ src.drop b) := by
    unfold slice
    rw [← List.append_assoc]
    have : src.take a ++ (src.take b).drop a = src.take b := by
      have h2 : (src.take b).take a = src.take a := by rw [List.take_take, Nat.min_eq_left hab]
      rw [← h2]; exact List.take_append_drop a (src.take b)
    rw [this, List.take_append_drop]
  rw [h1] at h
  refine chars_piece h fun c b' hc => ?_
  have h2 : (src.drop b)[0]? = some '$' := by rw [List.getElem?_drop]; simpa using hb
  rw [hc] at h2
  simp only [List.getElem?_cons_zero, Option.some.injEq] at h2
  subst h2
  decide

theorem drop_chars {src : Str} (h : Chars src) (a : Nat) : Chars (src.drop a) := by
  have h1 : src = src.take a ++ (src.drop a ++ []) := by rw [List.append_nil, List.take_append_drop]
  rw [h1] at h
  exact chars_piece h fun c b' hc => by cases hc

/-- Nodes made from character data. -/
def CharNode (safe : Bool) : Ir → Prop
  | .text t g _ => g = none ∧ Chars t
  | .trans t _ => Chars t
  | .expr _ s _ => s = safe
  | _ => False

theorem textNode_ok {m : TextMode} {t : Str} {l : Nat} (h : Chars t) : CharNode m.safe (textNode m t l) := by
  unfold textNode
  split
  · exact h
  · exact ⟨rfl, h⟩

theorem textLoop_chars {py : PyCompile} {m : TextMode} {src : Str} (hs : Chars src)
    (ms : List (Nat × Nat × DKind)) (hd : ∀ a b k, (a, b, k) ∈ ms → src[a]? = some '$') (pos ln : Nat)
    (xs : List Ir) (h : textLoop py m src pos ln ms = .ok xs) : ∀ x ∈ xs, CharNode m.safe x := by
  induction ms generalizing pos ln xs with
  | nil =>
    simp only [textLoop, Except.ok.injEq] at h
    subst h
    split
    · intro x hx
      simp only [List.mem_singleton] at hx
      subst hx
      exact textNode_ok (drop_chars hs _)
    · simp
  | cons k ms ih =>
    obtain ⟨start, stop, k⟩ := k
    have hb : ∀ x ∈ (textBefore m src pos start ln).1, CharNode m.safe x := by
      unfold textBefore
      split
      · next hlt =>
        intro x hx
        simp only [List.mem_singleton] at hx
        subst hx
        exact textNode_ok (slice_chars hs (Nat.le_of_lt hlt) (hd _ _ _ List.mem_cons_self))
      · simp
    have hd' := fun a b k h => hd a b k (List.mem_cons_of_mem _ h)
    have fin : ∀ (n : Ir) (r : Except Err (List Ir)), CharNode m.safe n →
        (∀ ys, r = .ok ys → ∀ x ∈ ys, CharNode m.safe x) →
        prepend ((textBefore m src pos start ln).1 ++ [n]) r = .ok xs → ∀ x ∈ xs, CharNode m.safe x := by
      intro n r hn hr hp x hx
      obtain ⟨ys, hy, rfl⟩ := XmlComp.prepend_ok.1 hp
      simp only [List.mem_append, List.mem_singleton] at hx
      rcases hx with (hx | rfl) | hx
      · exact hb x hx
      · exact hn
      · exact hr ys hy x hx
    simp only [textLoop] at h
    cases k with
    | braced =>
      simp only at h
      split at h
      · cases h
      · exact fin (.expr _ m.safe _) _ rfl (fun ys hy => ih hd' _ _ ys hy) h
    | named t => exact fin (.expr _ m.safe _) _ rfl (fun ys hy => ih hd' _ _ ys hy) h
    | dollar =>
      exact fin _ _ (textNode_ok (chars_plain (by decide))) (fun ys hy => ih hd' _ _ ys hy) h

theorem textSrc_chars {py : PyCompile} {m : TextMode} {src : Str} {ln : Nat} {xs : List Ir} (hs : Chars src)
    (h : compileTextSrc py m src ln = .ok xs) : ∀ x ∈ xs, CharNode m.safe x := by
  refine textLoop_chars hs _ (fun a b k hm => ?_) _ _ _ h
  obtain ⟨i, hi, hs⟩ := dollars_start hm
  rw [hi, Nat.zero_add]
  exact hs

/-! ## Shape -/

/-- No condition except that on `py:attrs`. -/
def anyL {W : Type} (O : Run.Oracle W) : Lang :=
  ⟨fun _ _ => True, fun _ => True, AttrsExpr O, fun _ => True, id⟩

variable {L : Lang} {W : Type} {O : Run.Oracle W}

theorem Shape.append {xs ys : List Ir} (h : Shape L xs) (h2 : Shape L ys) : Shape L (xs ++ ys) := by
  induction h with
  | nil => exact h2
  | @elem tag g l1 l2 l3 ns as ds body xs hn hg ha hds hd hb _ _ ih =>
    have := Shape.elem (L := L) (l1 := l1) (l2 := l2) (l3 := l3) hn hg ha hds hd hb ih
    simpa [List.append_assoc] using this
  | @empty tag e g l1 l2 ns as ds xs hn hg ha hds hd he _ ih =>
    have := Shape.empty (L := L) (l1 := l1) (l2 := l2) hn hg ha hds hd he ih
    simpa [List.append_assoc] using this
  | text ht _ ih => exact .text ht ih
  | trans ht _ ih => exact .trans ht ih
  | expr _ ih => exact .expr ih
  | python _ ih => exact .python ih
  | imp _ ih => exact .imp ih
  | incl _ ih => exact .incl ih
  | ext _ ih => exact .ext ih
  | pass _ ih => exact .pass ih
  | innerDef hb _ _ ih => exact .innerDef hb ih
  | call hk hb _ _ ih => exact .call hk hb ih
  | forN hb _ _ ih => exact .forN hb ih
  | withN hb _ _ ih => exact .withN hb ih
  | switchN hb _ _ ih => exact .switchN hb ih
  | caseN hb _ _ ih => exact .caseN hb ih
  | ifN hb _ _ ih => exact .ifN hb ih
  | elseN hb _ _ ih => exact .elseN hb ih

theorem anno_eq (l : Nat) (x : Ir) : ∃ k, anno l x = x.setLn k := by
  unfold anno
  split
  · exact ⟨l, rfl⟩
  · exact ⟨x.ln, by cases x <;> rfl⟩

theorem AttrShape.anno {g : Option Str} {ns : List Str} {as : List Ir} (h : AttrShape g ns as) (l : Nat) :
    AttrShape g ns (as.map (anno l)) := by
  induction h with
  | nil => exact .nil
  | @cons n v k ns as hn hv _ ih =>
    rw [List.map_cons]
    obtain ⟨k', hk⟩ := anno_eq l (.attr n "xml".toList g v k)
    rw [hk]
    exact .cons hn hv ih

theorem DynShape.mono {D D' : Str → List Str → Prop} {g : Option Str} {ns : List Str} {ds : List Ir}
    (h : DynShape D g ns ds) (hd : ∀ e ns, D e ns → D' e ns) : DynShape D' g ns ds := by
  cases h with
  | none => exact .none
  | some h => exact .some (hd _ _ h)

theorem DynShape.anno {D : Str → List Str → Prop} {g : Option Str} {ns : List Str} {ds : List Ir}
    (h : DynShape D g ns ds) (l : Nat) : DynShape D g ns (ds.map (anno l)) := by
  cases h with
  | none => exact .none
  | @some c k hd =>
    rw [List.map_cons, List.map_nil]
    obtain ⟨k', hk⟩ := anno_eq l (.attrs c "xml".toList g k)
    rw [hk]
    exact .some hd

theorem Shape.anno {xs : List Ir} (h : Shape (anyL O) xs) (l : Nat) : Shape (anyL O) (xs.map (anno l)) := by
  induction h with
  | nil => exact .nil
  | @elem tag g l1 l2 l3 ns as ds body xs hn hg ha hds hd _ _ ihb ih =>
    obtain ⟨k1, h1⟩ := anno_eq l (.text ('<' :: tag) g l1)
    obtain ⟨k2, h2⟩ := anno_eq l (.text ">".toList g l2)
    obtain ⟨k3, h3⟩ := anno_eq l (.text ("</".toList ++ tag ++ ">".toList) g l3)
    simp only [List.map_cons, List.map_append]
    rw [h1, h2, h3]
    exact .elem hn (fun _ _ => trivial) (ha.anno l) (hds.anno l) hd ihb ih
  | @empty tag e g l1 l2 ns as ds xs hn hg ha hds hd he _ ih =>
    obtain ⟨k1, h1⟩ := anno_eq l (.text ('<' :: tag) g l1)
    obtain ⟨k2, h2⟩ := anno_eq l (.text e g l2)
    simp only [List.map_cons, List.map_append]
    rw [h1, h2]
    exact .empty hn (fun _ _ => trivial) (ha.anno l) (hds.anno l) hd he ih
  | @text t k _ ht _ ih => obtain ⟨k', hk⟩ := anno_eq l (.text t none k); rw [List.map_cons, hk]; exact .text ht ih
  | @trans t k _ ht _ ih => obtain ⟨k', hk⟩ := anno_eq l (.trans t k); rw [List.map_cons, hk]; exact .trans ht ih
  | @expr c k _ _ ih => obtain ⟨k', hk⟩ := anno_eq l (.expr c false k); rw [List.map_cons, hk]; exact .expr ih
  | @python c k _ _ ih => obtain ⟨k', hk⟩ := anno_eq l (.python c k); rw [List.map_cons, hk]; exact .python ih
  | @imp c a k _ _ ih => obtain ⟨k', hk⟩ := anno_eq l (.imp c a k); rw [List.map_cons, hk]; exact .imp ih
  | @incl c k _ _ ih => obtain ⟨k', hk⟩ := anno_eq l (.incl c k); rw [List.map_cons, hk]; exact .incl ih
  | @ext c k _ _ ih => obtain ⟨k', hk⟩ := anno_eq l (.ext c k); rw [List.map_cons, hk]; exact .ext ih
  | @pass k _ _ ih => obtain ⟨k', hk⟩ := anno_eq l (.pass k); rw [List.map_cons, hk]; exact .pass ih
  | @innerDef d b k _ hb _ _ ih =>
    obtain ⟨k', hk⟩ := anno_eq l (.innerDef d b k); rw [List.map_cons, hk]; exact .innerDef hb ih
  | @call d c b k _ hc hb _ _ ih =>
    obtain ⟨k', hk⟩ := anno_eq l (.call d c b k); rw [List.map_cons, hk]; exact .call hc hb ih
  | @forN d b k _ hb _ _ ih =>
    obtain ⟨k', hk⟩ := anno_eq l (.forN d b k); rw [List.map_cons, hk]; exact .forN hb ih
  | @withN d b k _ hb _ _ ih =>
    obtain ⟨k', hk⟩ := anno_eq l (.withN d b k); rw [List.map_cons, hk]; exact .withN hb ih
  | @switchN d b k _ hb _ _ ih =>
    obtain ⟨k', hk⟩ := anno_eq l (.switchN d b k); rw [List.map_cons, hk]; exact .switchN hb ih
  | @caseN d b k _ hb _ _ ih =>
    obtain ⟨k', hk⟩ := anno_eq l (.caseN d b k); rw [List.map_cons, hk]; exact .caseN hb ih
  | @ifN d b k _ hb _ _ ih =>
    obtain ⟨k', hk⟩ := anno_eq l (.ifN d b k); rw [List.map_cons, hk]; exact .ifN hb ih
  | @elseN b k _ hb _ _ ih =>
    obtain ⟨k', hk⟩ := anno_eq l (.elseN b k); rw [List.map_cons, hk]; exact .elseN hb ih

theorem Shape.ofChars {xs : List Ir} (h : ∀ x ∈ xs, CharNode false x) : Shape L xs := by
  induction xs with
  | nil => exact .nil
  | cons x xs ih =>
    have hx := h x List.mem_cons_self
    have ih := ih fun y hy => h y (List.mem_cons_of_mem _ hy)
    cases x with
    | text t g l => obtain ⟨rfl, ht⟩ := hx; exact .text (.chars ht) ih
    | trans t l => exact .trans hx ih
    | expr c s l => cases hx; exact .expr ih
    | _ => cases hx

theorem dropWhile_nil {p : Char → Bool} {s : Str} (h : s.dropWhile p = []) : ∀ c ∈ s, p c = true := by
  induction s with
  | nil => simp
  | cons x s ih =>
    rw [List.dropWhile_cons] at h
    split at h
    · next hx =>
      intro c hc
      rcases List.mem_cons.1 hc with rfl | hc
      · exact hx
      · exact ih h c hc
    · cases h

/-- The cases of a `py:switch`. -/
theorem Shape.switchBody {xs ys : List Ir} (h : Shape L xs) (hs : switchBody xs = .ok ys) : Shape L ys := by
  have drop : ∀ {t : Str} {g : Option Str} {l : Nat} {xs : List Ir} {ys : List Ir},
      Kajiki.switchBody (.text t g l :: xs) = .ok ys → Kajiki.switchBody xs = .ok ys := by
    intro t g l xs ys h
    simp only [Kajiki.switchBody] at h
    split at h
    · exact h
    · cases h
  have tagstart : ∀ (tag : Str), (strip ('<' :: tag)).isEmpty = false := by
    intro tag
    unfold strip rstrip lstrip
    rw [List.dropWhile_cons_of_neg (by decide)]
    rw [List.isEmpty_eq_false_iff]
    intro h
    have h2 : List.dropWhile isSpace ('<' :: tag).reverse = [] := by simpa using h
    exact absurd (dropWhile_nil h2 '<' (by simp)) (by decide)
  induction h generalizing ys with
  | nil => simp only [Kajiki.switchBody, Except.ok.injEq] at hs; subst hs; exact .nil
  | text ht _ ih => exact ih (drop hs)
  | @elem tag =>
    simp only [Kajiki.switchBody, tagstart, Bool.false_eq_true, if_false] at hs
    cases hs
  | @empty tag =>
    simp only [Kajiki.switchBody, tagstart, Bool.false_eq_true, if_false] at hs
    cases hs
  | caseN hb _ _ ih =>
    simp only [Kajiki.switchBody] at hs
    obtain ⟨zs, hz, rfl⟩ := XmlComp.prepend_ok.1 hs
    exact .caseN hb (ih hz)
  | elseN hb _ _ ih =>
    simp only [Kajiki.switchBody] at hs
    obtain ⟨zs, hz, rfl⟩ := XmlComp.prepend_ok.1 hs
    exact .elseN hb (ih hz)
  | _ => simp only [Kajiki.switchBody] at hs; cases hs

/-! ## Documents -/

/-- Attributes as the source may have them. -/
def AttrsOk (O : Run.Oracle W) (attrs : Dict Str) : Prop :=
  (∀ kv ∈ attrs, Name kv.1) ∧ Dict.Distinct attrs ∧
  ∀ e, ("py:attrs".toList, e) ∈ attrs → AttrsExpr O e (attrs.map (·.1))

/-- A tag as the source may have it. -/
def TagOk (sc : Bool) (tag : Str) : Prop := Name tag ∧ (sc = true → cdataTags.contains tag = false)

mutual
/-- Documents that compile to trees of the right shape. -/
def DocOk (O : Run.Oracle W) (sc : Bool) : DNode → Prop
  | .elem tag attrs _ kids => TagOk sc tag ∧ AttrsOk O attrs ∧ DocsOk O sc kids
  | .text d _ _ => Chars d
  | .cdata _ _ => False
  | .comment d _ => ¬ "--".toList <:+: d
  | .pi _ _ _ => True

/-- Several of them. -/
def DocsOk (O : Run.Oracle W) (sc : Bool) : List DNode → Prop
  | [] => True
  | x :: xs => DocOk O sc x ∧ DocsOk O sc xs
end

variable {sc : Bool}

theorem docsOk_iff {xs : List DNode} : DocsOk O sc xs ↔ ∀ x ∈ xs, DocOk O sc x := by
  induction xs with
  | nil => simp [DocsOk]
  | cons x xs ih => simp [DocsOk, ih]

theorem docsOk_append {xs ys : List DNode} (h : DocsOk O sc xs) (h2 : DocsOk O sc ys) : DocsOk O sc (xs ++ ys) := by
  rw [docsOk_iff] at *
  intro x hx
  exact (List.mem_append.1 hx).elim (h x) (h2 x)

theorem AttrsExpr.anti {e : Str} {ns ms : List Str} (h : AttrsExpr O e ns)
    (hm : ∀ n ∈ ms, n ∈ ns ∨ "py:".toList <+: n) : AttrsExpr O e ms := by
  intro v w r l w' hv he
  obtain ⟨h1, h2⟩ := h v w r l w' hv he
  refine ⟨h1, fun kv hk => ⟨(h2 kv hk).1, fun hn => ?_, (h2 kv hk).2.2⟩⟩
  exact (hm _ hn).elim (h2 kv hk).2.1 (h2 kv hk).2.2.1

theorem AttrsOk.nil : AttrsOk O [] := ⟨by simp, by simp [Dict.Distinct], by simp⟩

theorem AttrsOk.filter {d : Dict Str} (h : AttrsOk O d) (p : Str × Str → Bool) : AttrsOk O (d.filter p) :=
  ⟨fun kv hk => h.1 kv (List.mem_of_mem_filter hk), h.2.1.filter p, fun e he =>
    AttrsExpr.anti (h.2.2 e (List.mem_of_mem_filter he)) fun n hn => .inl (by
      obtain ⟨kv, hk, rfl⟩ := List.mem_map.1 hn
      exact List.mem_map.2 ⟨kv, List.mem_of_mem_filter hk, rfl⟩)⟩

theorem AttrsOk.set {d : Dict Str} (h : AttrsOk O d) {k : Str}
    (hk : Name k ∧ k ≠ "py:attrs".toList ∧ "py:".toList <+: k) (v : Str) : AttrsOk O (d.set k v) := by
  refine ⟨fun kv hm => (Dict.mem_set hm).elim (fun e => by subst e; exact hk.1) (h.1 kv), h.2.1.set k v, fun e he => ?_⟩
  rcases Dict.mem_set he with he | he
  · exact absurd (congrArg Prod.fst he).symm hk.2.1
  · refine AttrsExpr.anti (h.2.2 e he) fun n hn => ?_
    obtain ⟨kv, hm, rfl⟩ := List.mem_map.1 hn
    rcases Dict.mem_set hm with rfl | hm
    · exact .inr hk.2.2
    · exact .inl (List.mem_map.2 ⟨kv, hm, rfl⟩)

theorem mem_update {α : Type} {d e : Dict α} {x : Str × α} (h : x ∈ d.update e) : x ∈ d ∨ x ∈ e := by
  unfold Dict.update at h
  induction e generalizing d with
  | nil => exact .inl h
  | cons kv e ih =>
    rw [List.foldl_cons] at h
    rcases ih h with h | h
    · rcases Dict.mem_set h with rfl | h
      · exact .inr List.mem_cons_self
      · exact .inl h
    · exact .inr (List.mem_cons_of_mem _ h)

theorem distinct_update {α : Type} {d e : Dict α} (h : Dict.Distinct d) : Dict.Distinct (d.update e) := by
  unfold Dict.update
  induction e generalizing d with
  | nil => exact h
  | cons kv e ih =>
    rw [List.foldl_cons]
    exact ih (h.set _ _)

theorem AttrsOk.ofEvent {e : Dict Str} (h : ∀ kv ∈ e, Name kv.1)
    (h2 : ∀ c, ("py:attrs".toList, c) ∈ e → AttrsExpr O c (e.map (·.1))) : AttrsOk O (Dict.update [] e) := by
  have hm : ∀ x ∈ Dict.update [] e, x ∈ e := fun x hx => (mem_update hx).resolve_left (by simp)
  refine ⟨fun kv hk => h kv (hm kv hk), distinct_update (by simp [Dict.Distinct]), fun c hc => ?_⟩
  refine AttrsExpr.anti (h2 c (hm _ hc)) fun n hn => .inl ?_
  obtain ⟨kv, hk, rfl⟩ := List.mem_map.1 hn
  exact List.mem_map.2 ⟨kv, hm kv hk, rfl⟩

instance (n : Str) : Decidable (Name n) := by unfold Name; infer_instance

/-! ### Parsing -/

/-- The parser's state has only such nodes. -/
structure POk (O : Run.Oracle W) (sc : Bool) (p : PState) : Prop where
  els : ∀ o ∈ p.els, TagOk sc o.tag ∧ AttrsOk O o.attrs ∧ DocsOk O sc o.kids
  doc : DocsOk O sc p.doc
  cdata : p.cdata = 0

theorem POk.append {p : PState} (h : POk O sc p) {x : DNode} (hx : DocOk O sc x) : POk O sc (p.append x) := by
  unfold PState.append
  split
  · next he => exact ⟨h.els, docsOk_append h.doc ⟨hx, trivial⟩, h.cdata⟩
  · next o os he =>
    refine ⟨fun o' ho => ?_, h.doc, h.cdata⟩
    rcases List.mem_cons.1 ho with rfl | ho
    · obtain ⟨a, b, c⟩ := h.els o (by rw [he]; exact List.mem_cons_self)
      exact ⟨a, b, docsOk_append c ⟨hx, trivial⟩⟩
    · exact h.els o' (by rw [he]; exact List.mem_cons_of_mem _ ho)

theorem POk.characters {p : PState} (h : POk O sc p) (t : Str) (l : Nat) : POk O sc (p.characters t l) := by
  unfold PState.characters
  refine h.append ?_
  rw [h.cdata]
  exact chars_sax t

theorem tagOk_of {tag : Str} (hn : Name tag)
    (hs : sc = true → tag ≠ "script".toList ∧ tag ≠ "style".toList) : TagOk sc tag := by
  refine ⟨hn, fun h => ?_⟩
  obtain ⟨h1, h2⟩ := hs h
  simp only [cdataTags, List.map_cons, List.map_nil]
  rw [Bool.eq_false_iff]
  intro hc
  rw [List.contains_iff_mem] at hc
  simp only [List.mem_cons, List.not_mem_nil, or_false] at hc
  exact hc.elim h1 h2

theorem POk.event {p p' : PState} (h : POk O sc p) {e : Event} (he : EventOk O sc e) (hp : p.event e = .ok p') :
    POk O sc p' := by
  cases e with
  | startElement name attrs ln =>
    simp only [PState.event, Except.ok.injEq] at hp
    subst hp
    refine ⟨fun o ho => ?_, h.doc, h.cdata⟩
    rcases List.mem_cons.1 ho with rfl | ho
    · exact ⟨tagOk_of he.1 he.2.2.2, AttrsOk.ofEvent he.2.1 he.2.2.1, trivial⟩
    · exact h.els o ho
  | endElement name =>
    simp only [PState.event] at hp
    split at hp
    · cases hp
    · next o os ho =>
      split at hp
      · simp only [Except.ok.injEq] at hp
        subst hp
        obtain ⟨a, b, c⟩ := h.els o (by rw [ho]; exact List.mem_cons_self)
        refine POk.append (p := { p with els := os }) ⟨fun o' h' => h.els o' (by rw [ho]; exact List.mem_cons_of_mem _ h'), h.doc, h.cdata⟩ ?_
        exact ⟨a, b, c⟩
      · cases hp
  | characters t ln => simp only [PState.event, Except.ok.injEq] at hp; subst hp; exact h.characters t ln
  | pi t d ln => simp only [PState.event, Except.ok.injEq] at hp; subst hp; exact h.append (x := .pi t d ln) trivial
  | skippedEntity name ln =>
    simp only [PState.event] at hp
    split at hp
    · simp only [Except.ok.injEq] at hp; subst hp; exact h.characters _ ln
    · cases hp
  | comment t ln => simp only [PState.event, Except.ok.injEq] at hp; subst hp; exact h.append (x := .comment t ln) he
  | startCDATA ln => cases he
  | endCDATA ln => cases he

theorem POk.events {p p' : PState} (h : POk O sc p) {es : List Event} (he : ∀ e ∈ es, EventOk O sc e)
    (hp : p.events es = .ok p') : POk O sc p' := by
  induction es generalizing p with
  | nil => simp only [PState.events, Except.ok.injEq] at hp; subst hp; exact h
  | cons e es ih =>
    simp only [PState.events] at hp
    split at hp
    · next q hq => exact ih (h.event (he e List.mem_cons_self) hq) (fun x hx => he x (List.mem_cons_of_mem _ hx)) hp
    · cases hp

theorem parse_ok {dtd : Str} {es : List Event} {doc : Doc} (he : ∀ e ∈ es, EventOk O sc e)
    (h : parseEvents dtd es = .ok doc) : DocsOk O sc doc.kids ∧ doc.dtd = dtd := by
  unfold parseEvents at h
  split at h
  · cases h
  · next p hp =>
    split at h
    · cases h
      exact ⟨(POk.events (sc := sc) (p := ⟨[], [], 0⟩) ⟨by simp, trivial, rfl⟩ he hp).doc, rfl⟩
    · cases h

/-! ### Transforming -/

theorem directive_names : ∀ d ∈ directives, TagOk sc d.1 ∧ (d.1 ≠ "py:attrs".toList ∧ "py:".toList <+: d.1) ∧
    (d.2.isEmpty = false → Name d.2 ∧ d.2 ≠ "py:attrs".toList) := by
  intro d hd
  have h1 : ∀ d ∈ directives, Name d.1 ∧ cdataTags.contains d.1 = false ∧
    (d.1 ≠ "py:attrs".toList ∧ "py:".toList <+: d.1) ∧
    (d.2.isEmpty = false → Name d.2 ∧ d.2 ≠ "py:attrs".toList) := by decide +kernel
  obtain ⟨a, b, c, e⟩ := h1 d hd
  exact ⟨⟨a, fun _ => b⟩, c, e⟩

theorem directiveAttrs_ok {d : Str × Str} (hd : d ∈ directives) (v : Str) : AttrsOk O (directiveAttrs d.2 v) := by
  unfold directiveAttrs
  split
  · exact .nil
  · next h =>
    have := (directive_names (sc := false) d hd).2.2 (by simpa using h)
    exact ⟨by simpa using this.1, by simp [Dict.Distinct], fun e he => by simp at he; exact absurd he.1.symm this.2⟩

theorem wrapAll_ok {ln : Nat} {inner : Dict Str → DNode} (hi : ∀ attrs, AttrsOk O attrs → DocOk O sc (inner attrs)) :
    ∀ (ds : List (Str × Str)) (_ : ∀ d ∈ ds, d ∈ directives) (attrs : Dict Str), AttrsOk O attrs →
      DocOk O sc (wrapAll ln inner ds attrs)
  | [], _, attrs, h => hi attrs h
  | (d, a) :: ds, hd, attrs, h => by
    have ih := wrapAll_ok (ln := ln) hi ds fun d h => hd d (List.mem_cons_of_mem _ h)
    unfold wrapAll
    split
    · exact ih attrs h
    · exact ⟨(directive_names (d, a) (hd _ List.mem_cons_self)).1,
        directiveAttrs_ok (hd _ List.mem_cons_self) _, ih _ (h.filter _), trivial⟩

theorem nop_ok : TagOk sc nopTag := ⟨by decide +kernel, fun _ => by decide +kernel⟩

theorem extendsChild_ok (v : Str) (ln : Nat) : DocOk O sc (extendsChild v ln) := by
  have h1 : TagOk sc extendsTag := ⟨by decide +kernel, fun _ => by decide +kernel⟩
  have h2 : Name "href".toList ∧ "href".toList ≠ "py:attrs".toList := by decide +kernel
  have h3 : AttrsOk O [("href".toList, v)] :=
    ⟨fun kv hk => by rw [List.mem_singleton] at hk; subst hk; exact h2.1, by simp [Dict.Distinct],
      fun e he => by simp at he⟩
  exact ⟨h1, h3, ⟨nop_ok, h3, trivial⟩, trivial⟩

theorem get_mem {α : Type} {d : Dict α} {k : Str} {v : α} (h : d.get k = some v) : (k, v) ∈ d := by
  induction d with
  | nil => cases h
  | cons x d ih =>
    obtain ⟨k', v'⟩ := x
    simp only [Dict.get] at h
    split at h
    · next hk => cases h; subst hk; exact List.mem_cons_self
    · exact List.mem_cons_of_mem _ (ih h)

theorem normTag_ok {tag : Str} {attrs : Dict Str} (ht : TagOk sc tag) (ha : AttrsOk O attrs) :
    TagOk sc (normTag tag attrs).1 ∧ AttrsOk O (normTag tag attrs).2 := by
  unfold normTag
  split
  · next a h =>
    have hd := directive_names (sc := sc) (tag, a) (get_mem h)
    exact ⟨nop_ok, ha.set ⟨hd.1.1, hd.2.1⟩ _⟩
  · exact ⟨ht, ha⟩

theorem pullExtends_ok {tag : Str} {attrs : Dict Str} (ha : AttrsOk O attrs) (ln : Nat) :
    AttrsOk O (pullExtends tag attrs ln).1 ∧ DocsOk O sc (pullExtends tag attrs ln).2 := by
  unfold pullExtends
  split
  · exact ⟨ha, trivial⟩
  · split
    · exact ⟨ha, trivial⟩
    · exact ⟨ha.filter _, extendsChild_ok _ _, trivial⟩

mutual
theorem expand_ok : ∀ x : DNode, DocOk O sc x → DocOk O sc (expand x)
  | .elem tag attrs ln kids, h => by
    obtain ⟨ht, ha, hk⟩ := h
    obtain ⟨h1, h2⟩ := normTag_ok ht ha
    obtain ⟨h3, h4⟩ := pullExtends_ok (sc := sc) (tag := (normTag tag attrs).1) h2 ln
    unfold expand
    exact wrapAll_ok (inner := fun as => .elem (normTag tag attrs).1 as ln (_ ++ expandList kids)) (fun as has => ⟨h1, has, docsOk_append h4 (expandList_ok kids hk)⟩) _ (fun d h => h) _ h3
  | .text _ _ _, h => h
  | .cdata _ _, h => h
  | .comment _ _, h => h
  | .pi _ _ _, h => h

theorem expandList_ok : ∀ xs : List DNode, DocsOk O sc xs → DocsOk O sc (expandList xs)
  | [], _ => trivial
  | x :: xs, h => ⟨expand_ok x h.1, expandList_ok xs h.2⟩
end

theorem squash_ok (m : Option (Str × Bool × Nat)) (xs : List DNode) (hm : ∀ d e l, m = some (d, e, l) → Chars d)
    (h : DocsOk O sc xs) : DocsOk O sc (squash m xs) := by
  fun_induction squash m xs with
  | case1 => trivial
  | case2 d e l => exact ⟨hm d e l rfl, trivial⟩
  | case3 d e l xs ih => exact ih (fun _ _ _ heq => by cases heq; exact h.1) h.2
  | case4 d e l d' e' l' xs ih =>
    exact ih (fun _ _ _ heq => by cases heq; exact chars_append (hm _ _ _ rfl) h.1) h.2
  | case5 x xs hx ih => exact ⟨h.1, ih (by simp) h.2⟩
  | case6 d e l x xs hx ih => exact ⟨hm _ _ _ rfl, h.1, ih (by simp) h.2⟩

mutual
theorem merge_ok : ∀ x : DNode, DocOk O sc x → DocOk O sc (merge x)
  | .elem _ _ _ kids, h => ⟨h.1, h.2.1, squash_ok none _ (by simp) (mergeList_ok kids h.2.2)⟩
  | .text _ _ _, h => h
  | .cdata _ _, h => h
  | .comment _ _, h => h
  | .pi _ _ _, h => h

theorem mergeList_ok : ∀ xs : List DNode, DocsOk O sc xs → DocsOk O sc (mergeList xs)
  | [], _ => trivial
  | x :: xs, h => ⟨merge_ok x h.1, mergeList_ok xs h.2⟩
end

theorem chars_strip {d : Str} (h : Chars d) : Chars (strip d) := by
  rw [← Doms.cut_lead_core_trail d] at h
  refine chars_piece h fun c b' hc => ?_
  have := Doms.trail_blank (lstrip d) c (by rw [hc]; exact List.mem_cons_self)
  intro hm
  have h2 : ∀ c ∈ refChars, isSpace c = false := by decide +kernel
  rw [h2 c hm] at this
  cases this

theorem textUnlessEmpty_ok {d : Str} (h : Chars d) (e : Bool) (l : Nat) : DocsOk O sc (textUnlessEmpty d e l) := by
  unfold textUnlessEmpty
  split
  · trivial
  · exact ⟨h, trivial⟩

theorem splitText_ok {d : Str} (h : Chars d) (e : Bool) (l : Nat) : DocsOk O sc (splitText d e l) := by
  rw [Doms.splitText_eq]
  split
  · exact ⟨h, trivial⟩
  · exact docsOk_append (textUnlessEmpty_ok (chars_space fun c hc => Doms.mem_takeWhile hc) _ _)
      ⟨chars_strip h, textUnlessEmpty_ok (chars_space (Doms.trail_blank _)) _ _⟩

mutual
theorem extract_ok : ∀ x : DNode, DocOk O sc x → DocsOk O sc (extract x)
  | .elem _ _ _ kids, h => ⟨⟨h.1, h.2.1, extractList_ok kids h.2.2⟩, trivial⟩
  | .text _ e l, h => splitText_ok h e l
  | .cdata _ _, h => ⟨h, trivial⟩
  | .comment _ _, h => ⟨h, trivial⟩
  | .pi _ _ _, h => ⟨h, trivial⟩

theorem extractList_ok : ∀ xs : List DNode, DocsOk O sc xs → DocsOk O sc (extractList xs)
  | [], _ => trivial
  | x :: xs, h => docsOk_append (extract_ok x h.1) (extractList_ok xs h.2)
end

mutual
theorem stripNode_ok : ∀ x : DNode, DocOk O sc x → DocOk O sc (stripNode x)
  | .elem _ _ _ kids, h => ⟨h.1, h.2.1, stripList_ok kids h.2.2⟩
  | .text _ _ _, h => chars_strip h
  | .cdata _ _, h => h
  | .comment _ _, h => h
  | .pi _ _ _, h => h

theorem stripList_ok : ∀ xs : List DNode, DocsOk O sc xs → DocsOk O sc (stripList xs)
  | [], _ => trivial
  | x :: xs, h => ⟨stripNode_ok x h.1, stripList_ok xs h.2⟩
end

theorem onFirst_ok {f : DNode → DNode} (hf : ∀ x, DocOk O sc x → DocOk O sc (f x)) {xs : List DNode}
    (h : DocsOk O sc xs) : DocsOk O sc (onFirst f xs) := by
  cases xs with
  | nil => trivial
  | cons x xs => exact ⟨hf x h.1, h.2⟩

theorem transform_ok {st : Bool} {doc : Doc} (h : DocsOk O sc doc.kids) : DocsOk O sc (transform st doc).kids := by
  unfold transform
  have h1 := extractList_ok _ (onFirst_ok (f := merge) merge_ok (onFirst_ok (f := expand) expand_ok h))
  dsimp only
  split
  · exact stripList_ok _ h1
  · exact h1

/-! ### Compiling -/


/-- All registered functions have the right shape. -/
def ShapeS (O : Run.Oracle W) (s : CState) : Prop := ∀ f ∈ s.funs, Shape (anyL O) f.2

/-- The compilation makes trees of the right shape. -/
def MakesS (O : Run.Oracle W) (m : CM (List Ir)) : Prop :=
  ∀ s, ShapeS O s → ∀ xs t, m s = .ok (xs, t) → ShapeS O t ∧ Shape (anyL O) xs

theorem MakesS.pure {xs : List Ir} (h : Shape (anyL O) xs) : MakesS O (CM.pure xs) := by
  intro s hs ys t he
  rw [XmlComp.pure_ok] at he
  cases he
  exact ⟨hs, h⟩

theorem MakesS.throw (e : Err) : MakesS O (CM.throw e) := by intro s hs ys t he; cases he

theorem MakesS.bind {m : CM (List Ir)} {f : List Ir → CM (List Ir)} (h : MakesS O m)
    (hf : ∀ xs, Shape (anyL O) xs → MakesS O (f xs)) : MakesS O (CM.bind m f) := by
  intro s hs ys t he
  obtain ⟨xs, s1, h1, h2⟩ := XmlComp.bind_ok.1 he
  obtain ⟨g1, g2⟩ := h s hs xs s1 h1
  exact hf xs g2 s1 g1 ys t h2

theorem MakesS.lift {α : Type} {x : Except Err α} {f : α → CM (List Ir)} (h : ∀ a, x = .ok a → MakesS O (f a)) :
    MakesS O (CM.bind (CM.lift x) f) := by
  intro s hs ys t he
  obtain ⟨a, s1, h1, h2⟩ := XmlComp.bind_ok.1 he
  obtain ⟨h3, h4⟩ := XmlComp.lift_ok.1 h1
  simp only at h3 h4
  subst h4
  exact h a h3 s1 hs ys t h2

theorem MakesS.get {f : CState → CM (List Ir)} (h : ∀ s, MakesS O (f s)) : MakesS O (CM.bind CM.get f) := by
  intro s hs ys t he
  exact h s s hs ys t he

theorem MakesS.modify {g : CState → CState} {f : Unit → CM (List Ir)} (hg : ∀ s, ShapeS O s → ShapeS O (g s))
    (h : MakesS O (f ())) : MakesS O (CM.bind (CM.modify g) f) := by
  intro s hs ys t he
  exact h (g s) (hg s hs) ys t he

theorem MakesS.annotate {m : CM (List Ir)} (l : Nat) (h : MakesS O m) : MakesS O (annotate l m) :=
  MakesS.bind h fun _ hx => .pure (hx.anno l)

theorem ShapeS.set {s : CState} (h : ShapeS O s) (k : Str) {b : List Ir} (hb : Shape (anyL O) b) :
    ShapeS O { s with funs := s.funs.set k b } := by
  intro f hf
  rcases Dict.mem_set hf with rfl | h1
  · exact hb
  · exact h f h1

theorem MakesS.finishBlock (name : Str) {b : List Ir} (hb : Shape (anyL O) b) : MakesS O (finishBlock name b) := by
  unfold Kajiki.finishBlock
  have hb' : Shape (anyL O) (if b.isEmpty then [.pass 0] else b) := by
    split
    · exact .pass .nil
    · exact hb
  refine .modify (fun s hs => hs.set _ hb') (.get fun s => ?_)
  split
  · exact .lift fun p _ => .modify (fun s hs => hs.set _ (.python hb')) (.pure .nil)
  · exact .pure (.expr .nil)

theorem MakesS.compileDef (decl : Str) {m : CM (List Ir)} (h : MakesS O m) : MakesS O (compileDef decl m) := by
  unfold Kajiki.compileDef
  refine .get fun s => .modify (fun s hs => hs) (.bind h fun b hb => .modify (fun s hs => hs) ?_)
  split
  · exact .pure (.innerDef hb .nil)
  · exact .modify (fun s hs => hs.set _ hb) (.pure .nil)

theorem MakesS.compileCall (env : CEnv) (f : Str) (kids : List DNode) {m : CM (List Ir)} (h : MakesS O m) :
    MakesS O (compileCall env f kids m) := by
  unfold Kajiki.compileCall
  exact .lift fun d _ => .bind h fun b hb => .get fun s => .modify (fun s hs => hs)
    (.pure (.call trivial hb .nil))

theorem MakesS.compileKind (env : CEnv) (ctx : Ctx) (attrs : Dict Str) (kids : List DNode)
    {m : CM (List Ir)} (h : MakesS O m) (k : Kind) : MakesS O (compileKind env ctx attrs kids m k) := by
  cases k with
  | replace => exact .pure (.expr .nil)
  | imp => exact .pure (.imp .nil)
  | ext =>
    exact .modify (f := fun _ => CM.bind m fun b => CM.pure (.ext (getAttr attrs "href".toList) 0 :: b))
      (fun s hs => hs) (.bind h fun b hb => .pure (.ext hb))
  | incl => exact .pure (.incl .nil)
  | block => exact .bind h fun b hb => .finishBlock _ hb
  | defn => exact .compileDef _ h
  | call => exact .compileCall _ _ _ h
  | forK => exact .bind h fun b hb => .pure (.forN hb .nil)
  | withK => exact .bind h fun b hb => .lift fun vs _ => .pure (.withN hb .nil)
  | switchK => exact .bind h fun b hb => .lift fun b' hb' => .pure (.switchN (hb.switchBody hb') .nil)
  | caseK => exact .bind h fun b hb => .pure (.caseN hb .nil)
  | ifK => exact .bind h fun b hb => .pure (.ifN hb .nil)
  | elseK => exact .lift fun _ _ => .bind h fun b hb => .pure (.elseN hb .nil)
  | nop => exact h
  | xml => exact .pure .nil
  | broken => exact .throw _
  | endless => exact .throw _

theorem insertAttr_perm (kv : Str × Str) (xs : List (Str × Str)) : (insertAttr kv xs).Perm (kv :: xs) := by
  induction xs with
  | nil => exact .refl _
  | cons x xs ih =>
    simp only [insertAttr]
    split
    · exact (ih.cons x).trans (List.Perm.swap kv x xs)
    · exact .refl _

theorem sortItems_perm (as : Dict Str) : (sortItems as).Perm as := by
  induction as with
  | nil => exact .refl _
  | cons x as ih => exact (insertAttr_perm x (sortItems as)).trans (ih.cons x)

theorem textSrc_isValue {py : PyCompile} {m : TextMode} {src : Str} {ln : Nat} {xs : List Ir}
    (h : compileTextSrc py m src ln = .ok xs) (hm : m.translate = false) : ∀ x ∈ xs, isValue x = true := by
  intro x hx
  cases XmlComp.textSrc_parts h x hx with
  | text t l ht => simp [textNode, hm, isValue]
  | expr t l => rfl

theorem compileAttrs_shape {env : CEnv} {g : Option Str} {ln : Nat} (hm : env.mode = "xml".toList)
    {as : List (Str × Str)} (ha : ∀ kv ∈ as, Name kv.1) {xs : List Ir} (h : compileAttrs env g ln as = .ok xs) :
    ∃ ns, AttrShape g ns xs ∧ ns.Sublist (as.map (·.1)) := by
  induction as generalizing xs with
  | nil => simp only [compileAttrs, Except.ok.injEq] at h; subst h; exact ⟨[], .nil, .slnil⟩
  | cons kv as ih =>
    obtain ⟨k, v⟩ := kv
    simp only [compileAttrs] at h
    split at h
    · cases h
    · next vs hv =>
      obtain ⟨ys, hy, rfl⟩ := XmlComp.prepend_ok.1 h
      obtain ⟨ns, h1, h2⟩ := ih (fun x hx => ha x (List.mem_cons_of_mem _ hx)) hy
      split
      · exact ⟨ns, h1, h2.cons _⟩
      · refine ⟨k :: ns, ?_, h2.cons_cons _⟩
        rw [hm]
        exact .cons (ha _ List.mem_cons_self) (textSrc_isValue hv rfl) h1

theorem get_none {d : Dict Str} {k : Str} (h : ∀ kv ∈ d, kv.1 ≠ k) : d.get k = none := by
  cases hg : d.get k with
  | none => rfl
  | some v => exact absurd rfl (h _ (get_mem hg))

theorem MakesS.compileXml {env : CEnv} (hm : env.mode = "xml".toList) {tag : Str} (ht : Name tag)
    {attrs : Dict Str} (ha : AttrsOk O attrs) (ln : Nat) (e : Bool)
    {m : CM (List Ir)} (h : MakesS O m) : MakesS O (compileXml env tag attrs ln e m) := by
  unfold Kajiki.compileXml
  refine .lift fun as has => ?_
  obtain ⟨ns, h1, h2⟩ := compileAttrs_shape (env := env) hm
    (fun kv hk => ha.1 kv (List.mem_of_mem_filter ((sortItems_perm _).mem_iff.1 hk))) has
  have hns : ns.Nodup := by
    refine h2.nodup ?_
    exact ((sortItems_perm _).map _).nodup_iff.2 (ha.2.1.filter _)
  have hds : DynShape (anyL O).D (stripGuard attrs) ns (attrsNode env (stripGuard attrs) attrs) := by
    unfold attrsNode
    dsimp only
    split
    · exact .none
    · next hne =>
      rw [hm]
      refine .some (AttrsExpr.anti (ha.2.2 _ ?_) fun n hn => .inl ?_)
      · unfold getAttr at hne ⊢
        cases hg : attrs.get "py:attrs".toList with
        | none => rw [hg] at hne; exact absurd rfl hne
        | some v => exact get_mem hg
      · obtain ⟨kv, hk, rfl⟩ := List.mem_map.1 (h2.subset hn)
        exact List.mem_map.2 ⟨kv, List.mem_of_mem_filter ((sortItems_perm _).mem_iff.1 hk), rfl⟩
  have hx : isHtml env.mode = false := by rw [hm]; decide
  have hend : emptyEnd env.mode tag = "/>".toList ∨
      emptyEnd env.mode tag = '>' :: ("</".toList ++ tag ++ ">".toList) := by
    unfold emptyEnd endTag
    split
    · exact .inr rfl
    · rw [hx]; exact .inl rfl
  unfold compileBody
  dsimp only
  by_cases hc : (getAttr attrs "py:content".toList).isEmpty = true
  · rw [if_pos hc]
    by_cases he : e = true
    · rw [if_pos he]
      refine .pure ?_
      have := Shape.empty (L := anyL O) (l1 := 0) (l2 := 0) ht (fun _ _ => trivial) h1 hds hns hend Shape.nil
      simpa using this
    · rw [if_neg he]
      rw [XmlComp.bind_assoc]
      refine .bind h fun ks hk => ?_
      rw [XmlComp.pure_bind]
      refine .pure ?_
      have hf : fullEnd env.mode tag (stripGuard attrs) = [.text (endTag tag) (stripGuard attrs) 0] := by
        unfold fullEnd; rw [hx]; rfl
      rw [hf]
      have := Shape.elem (L := anyL O) (l1 := 0) (l2 := 0) (l3 := 0) ht (fun _ _ => trivial) h1 hds hns
        hk Shape.nil
      simpa [endTag] using this
  · rw [if_neg hc]
    refine .pure ?_
    have := Shape.elem (L := anyL O) (l1 := 0) (l2 := 0) (l3 := 0) ht (fun _ _ => trivial) h1 hds hns
      (Shape.expr (c := getAttr attrs "py:content".toList) (l := 0) Shape.nil) Shape.nil
    simpa [endTag] using this

theorem MakesS.compileText (env : CEnv) (parent : Option Str) {d : Str} (l : Nat) (hd : Chars d) :
    MakesS O (compileText env parent d l) := by
  unfold Kajiki.compileText
  cases parent with
  | none => exact .throw _
  | some p =>
    intro s hs xs t he
    obtain ⟨ys, h1, rfl⟩ := XmlComp.annotate_ok.1 he
    obtain ⟨h2, h3⟩ := XmlComp.lift_ok.1 h1
    simp only at h2 h3 ⊢
    subst h3
    exact ⟨hs, (Shape.ofChars (textSrc_chars hd h2)).anno l⟩

theorem isAutoblock_attrs {env : CEnv} {tag : Str} {attrs : Dict Str} {r : Bool × Dict Str}
    (h : isAutoblock env tag attrs = .ok r) (ha : AttrsOk O attrs) : AttrsOk O r.2 := by
  unfold isAutoblock at h
  split at h
  · split at h
    · cases h; exact ha
    · dsimp only at h
      split at h
      · cases h; exact ha.filter _
      · split at h
        · cases h; exact ha
        · cases h
  · cases h; exact ha

mutual
theorem node_shape {env : CEnv} (hm : env.mode = "xml".toList) (ctx : Ctx) (x : DNode)
    (h : DocOk O env.opts.cdataScripts x) : MakesS O (compileNode env ctx x) := by
  cases x with
  | comment d ln =>
    simp only [compileNode]
    refine .annotate ln (.pure ?_)
    unfold compileComment
    split
    · exact .nil
    · exact .text (.comment h) .nil
  | text d e ln =>
    simp only [compileNode]
    exact .compileText env _ ln h
  | cdata d ln => cases h
  | pi tg d ln =>
    simp only [compileNode]
    refine .annotate ln (.lift fun p _ => ?_)
    split
    · exact .modify (fun s hs => hs) (.pure .nil)
    · exact .pure (.python .nil)
  | elem tag attrs ln kids =>
    obtain ⟨ht, ha, hk⟩ := h
    simp only [compileNode]
    refine .lift fun auto hauto => ?_
    have ha' := isAutoblock_attrs hauto ha
    have hk : ∀ raw, MakesS O (compileKids env raw (some tag) (auto.2.has "py:switch".toList) [] kids) :=
      fun raw => kids_shape hm raw (some tag) _ [] kids hk
    split
    · exact .annotate ln (.bind (.annotate ln (hk false)) fun b hb => .finishBlock _ hb)
    · split
      · refine .annotate ln (.compileXml hm ht.1 ha' _ _ ?_)
        split
        · next hs =>
          simp only [isScript, Bool.and_eq_true] at hs
          rw [ht.2 hs.1] at hs
          cases hs.2
        · exact hk true
      · exact .annotate ln (.compileKind _ _ _ _ (.annotate ln (hk false)) _)

theorem kids_shape {env : CEnv} (hm : env.mode = "xml".toList) (raw : Bool) (parent : Option Str) (sw : Bool)
    (prev : Str) (xs : List DNode) (h : DocsOk O env.opts.cdataScripts xs) :
    MakesS O (compileKids env raw parent sw prev xs) := by
  cases xs with
  | nil => simp only [compileKids]; exact .pure .nil
  | cons x xs =>
    have h2 := fun pr => kids_shape hm raw parent sw pr xs h.2
    cases x with
    | cdata d ln => cases h.1
    | _ =>
      simp only [compileKids]
      exact .bind (node_shape hm _ _ h.1) fun ys hy => .bind (h2 _) fun zs hz => .pure (hy.append hz)
end

theorem compileDoc_shape {env : CEnv} (hm : env.mode = "xml".toList) {doc : Doc}
    (h : DocsOk O env.opts.cdataScripts doc.kids) (hd : doc.dtd = [] ∨ Doctype (strip doc.dtd) ∨ env.opts.isFragment = true) {t : Tmpl}
    (ht : compileDoc env doc = .ok t) : ∀ d ∈ t.defs, Shape (anyL O) d.body := by
  unfold compileDoc at ht
  split at ht
  · next root hr =>
    have hroot : DocOk O env.opts.cdataScripts root := by
      refine docsOk_iff.1 h root (List.mem_of_mem_filter (p := fun n => !isComment n) ?_)
      rw [hr]; exact List.mem_singleton.2 rfl
    split at ht
    · cases ht
    · next body s hb =>
      have h0 : ShapeS O .start := by
        intro f hf
        simp only [CState.start, List.mem_singleton] at hf
        subst hf
        exact .nil
      obtain ⟨h1, h2⟩ := node_shape hm _ root hroot _ h0 _ _ hb
      have h3 : Shape (anyL O) (if (!env.opts.isFragment && !s.isChild) = true then doctypeNode env.mode doc.dtd ++ body
          else body) := by
        split
        · next hc =>
          rcases hd with hd | hd | hd
          · have : doctypeNode env.mode doc.dtd = [] := by rw [hd, hm]; decide
            rw [this]; exact h2
          · unfold doctypeNode
            split
            · exact .text (.append (.doctype hd) (.chars ⟨by decide, fun pre post h => by have := congrArg (List.count '&') h; simp at this⟩)) h2
            · split
              · next h5 => rw [hm] at h5; exact absurd h5 (by decide)
              · exact h2
          · rw [hd] at hc; cases hc
        · exact h2
      cases ht
      intro d hd
      obtain ⟨f, hf, rfl⟩ := List.mem_map.1 hd
      exact h1.set mainDecl h3 f hf
  · cases ht

theorem xmlTemplate_shape {py : PyCompile} {gen : Nat → Str} {o : Opts} {st : Bool} {dtd : Str} {es : List Event}
    (hm : selectMode o.mode dtd = "xml".toList) (he : ∀ e ∈ es, EventOk O o.cdataScripts e)
    (hd : dtd = [] ∨ Doctype (strip dtd) ∨ o.isFragment = true) {t : Tmpl} (ht : xmlTemplate py gen o st dtd es = .ok t) :
    ∀ d ∈ t.defs, Shape (anyL O) d.body := by
  unfold xmlTemplate at ht
  split at ht
  · cases ht
  · next doc hp =>
    obtain ⟨h1, h2⟩ := parse_ok he hp
    refine compileDoc_shape (env := ⟨py, selectMode o.mode (transform st doc).dtd, o, gen⟩) ?_ (transform_ok h1) ?_ ht
    · show selectMode o.mode doc.dtd = _
      rw [h2]; exact hm
    · show doc.dtd = _ ∨ Doctype (strip doc.dtd) ∨ _
      rw [h2]; exact hd

/-! ## Guards and callees -/

theorem textGuards_append (xs ys : List Ir) : textGuardsList (xs ++ ys) = textGuardsList xs ++ textGuardsList ys := by
  induction xs with
  | nil => rfl
  | cons x xs ih => simp [textGuardsList, ih]

theorem callees_append (xs ys : List Ir) : calleesList (xs ++ ys) = calleesList xs ++ calleesList ys := by
  induction xs with
  | nil => rfl
  | cons x xs ih => simp [calleesList, ih]

/-- The condition of `SteadyGuards` on one list of nodes. -/
def Ends (H : Str → List Ir → Prop) (xs : List Ir) : Prop :=
  ∀ pre mid post t t' g g' l l' e, xs = pre ++ .text t g l :: (mid ++ .text t' g' l' :: post) →
    activeGuard g = some e → activeGuard g' = some e → H e mid

/-- The same for the lists below. -/
def AllEnds (H : Str → List Ir → Prop) (xs : List Ir) : Prop := ∀ ys ∈ xs :: nestedList xs, Ends H ys

variable {H : Str → List Ir → Prop}

theorem Ends.infix {a b c : List Ir} (h : Ends H (a ++ (b ++ c))) : Ends H b := by
  intro pre mid post t t' g g' l l' e hb
  exact h (a ++ pre) mid (post ++ c) t t' g g' l l' e (by rw [hb]; simp)

theorem nested_append (xs ys : List Ir) : nestedList (xs ++ ys) = nestedList xs ++ nestedList ys := by
  induction xs with
  | nil => rfl
  | cons x xs ih => simp [nestedList, ih]

theorem AllEnds.infix {a b c : List Ir} (h : AllEnds H (a ++ (b ++ c))) : AllEnds H b := by
  intro ys hy
  rcases List.mem_cons.1 hy with rfl | hy
  · exact (h _ List.mem_cons_self).infix
  · exact h ys (List.mem_cons_of_mem _ (by simp [nested_append, hy]))

theorem AllEnds.tail {x : Ir} {xs : List Ir} (h : AllEnds H (x :: xs)) : AllEnds H xs :=
  AllEnds.infix (a := [x]) (c := []) (by simpa using h)

theorem AllEnds.below {x : Ir} {xs b : List Ir} (h : AllEnds H (x :: xs)) (hx : nested x = b :: nestedList b) :
    AllEnds H b := by
  intro ys hy
  refine h ys (List.mem_cons_of_mem _ ?_)
  rw [nestedList, hx]
  exact List.mem_append_left _ hy

/-- Conditions that hold between texts with the same guard hold for elements. -/
theorem Shape.restrict {xs : List Ir} (h : Shape (anyL O) xs) (hD : ∀ e ns, AttrsExpr O e ns → L.D e ns)
    (hg : AllEnds L.G xs) (hk : ∀ c ∈ calleesList xs, L.K c) : Shape L xs := by
  induction h with
  | nil => exact .nil
  | @elem tag g l1 l2 l3 ns as ds body xs hn _ ha hds hd _ _ ihb ih =>
    simp only [calleesList, callees_append, callees, List.mem_append] at hk
    refine .elem hn (fun e he => ?_) ha (hds.mono hD) hd (ihb ?_ ?_) (ih ?_ ?_)
    · exact hg _ List.mem_cons_self [] (as ++ (ds ++ .text ">".toList g l2 :: body)) xs ('<' :: tag)
        ("</".toList ++ tag ++ ">".toList) g g l1 l3 e (by simp) he he
    · exact AllEnds.infix (a := .text ('<' :: tag) g l1 :: (as ++ (ds ++ [.text ">".toList g l2])))
        (c := .text ("</".toList ++ tag ++ ">".toList) g l3 :: xs) (by simpa using hg)
    · intro g h; exact hk g (by simp [h])
    · exact AllEnds.infix (a := .text ('<' :: tag) g l1 :: (as ++ (ds ++ .text ">".toList g l2 :: (body ++
        [.text ("</".toList ++ tag ++ ">".toList) g l3])))) (c := []) (by simpa using hg)
    · intro g h; exact hk g (by simp [h])
  | @empty tag e g l1 l2 ns as ds xs hn _ ha hds hd he _ ih =>
    simp only [calleesList, callees_append, callees, List.mem_append] at hk
    refine .empty hn (fun e' he => ?_) ha (hds.mono hD) hd he (ih ?_ ?_)
    · exact hg _ List.mem_cons_self [] (as ++ ds) xs ('<' :: tag) e g g l1 l2 e' (by simp) he he
    · exact AllEnds.infix (a := .text ('<' :: tag) g l1 :: (as ++ (ds ++ [.text e g l2])))
        (c := []) (by simpa using hg)
    · intro g h; exact hk g (by simp [h])
  | text ht _ ih => exact .text ht (ih hg.tail fun g h => hk g (by simp [calleesList, h]))
  | trans ht _ ih => exact .trans ht (ih hg.tail fun g h => hk g (by simp [calleesList, h]))
  | expr _ ih => exact .expr (ih hg.tail fun g h => hk g (by simp [calleesList, h]))
  | python _ ih => exact .python (ih hg.tail fun g h => hk g (by simp [calleesList, h]))
  | imp _ ih => exact .imp (ih hg.tail fun g h => hk g (by simp [calleesList, h]))
  | incl _ ih => exact .incl (ih hg.tail fun g h => hk g (by simp [calleesList, h]))
  | ext _ ih => exact .ext (ih hg.tail fun g h => hk g (by simp [calleesList, h]))
  | pass _ ih => exact .pass (ih hg.tail fun g h => hk g (by simp [calleesList, h]))
  | call _ _ _ ihb ih =>
    simp only [calleesList, callees, List.mem_append, List.mem_cons] at hk
    exact .call (hk _ (.inl (.inl rfl))) (ihb (hg.below rfl) fun g h => hk g (.inl (.inr h)))
      (ih hg.tail fun g h => hk g (.inr h))
  | innerDef _ _ ihb ih =>
    simp only [calleesList, callees, List.mem_append] at hk
    exact .innerDef (ihb (hg.below rfl) fun g h => hk g (.inl h)) (ih hg.tail fun g h => hk g (.inr h))
  | forN _ _ ihb ih =>
    simp only [calleesList, callees, List.mem_append] at hk
    exact .forN (ihb (hg.below rfl) fun g h => hk g (.inl h)) (ih hg.tail fun g h => hk g (.inr h))
  | withN _ _ ihb ih =>
    simp only [calleesList, callees, List.mem_append] at hk
    exact .withN (ihb (hg.below rfl) fun g h => hk g (.inl h)) (ih hg.tail fun g h => hk g (.inr h))
  | switchN _ _ ihb ih =>
    simp only [calleesList, callees, List.mem_append] at hk
    exact .switchN (ihb (hg.below rfl) fun g h => hk g (.inl h)) (ih hg.tail fun g h => hk g (.inr h))
  | caseN _ _ ihb ih =>
    simp only [calleesList, callees, List.mem_append] at hk
    exact .caseN (ihb (hg.below rfl) fun g h => hk g (.inl h)) (ih hg.tail fun g h => hk g (.inr h))
  | ifN _ _ ihb ih =>
    simp only [calleesList, callees, List.mem_append] at hk
    exact .ifN (ihb (hg.below rfl) fun g h => hk g (.inl h)) (ih hg.tail fun g h => hk g (.inr h))
  | elseN _ _ ihb ih =>
    simp only [calleesList, callees, List.mem_append] at hk
    exact .elseN (ihb (hg.below rfl) fun g h => hk g (.inl h)) (ih hg.tail fun g h => hk g (.inr h))

theorem textGuards_values {v : List Ir} (h : ∀ x ∈ v, isValue x = true) : textGuardsList v = [] := by
  induction v with
  | nil => rfl
  | cons x v ih =>
    rw [textGuardsList, ih fun y hy => h y (List.mem_cons_of_mem _ hy), List.append_nil]
    have := h x List.mem_cons_self
    unfold isValue at this
    split at this
    · rfl
    · rfl
    · cases this

theorem AttrShape.textGuards {g : Option Str} {ns : List Str} {as : List Ir} (h : AttrShape g ns as) :
    textGuardsList as = [] := by
  induction h with
  | nil => rfl
  | cons _ hv _ ih => rw [textGuardsList, ih, Sem.textGuards, textGuards_values hv]; rfl

theorem DynShape.textGuards {D : Str → List Str → Prop} {g : Option Str} {ns : List Str} {ds : List Ir}
    (h : DynShape D g ns ds) : textGuardsList ds = [] := by
  cases h <;> rfl

/-- Every guard is that of an element. -/
theorem Shape.guards {xs : List Ir} (h : Shape L xs) : ∀ e ∈ textGuardsList xs, ∃ mid, L.G e mid := by
  induction h with
  | nil => intro e he; cases he
  | elem hn hG ha hds hd _ _ ihb ih =>
    intro e he
    simp only [textGuardsList, textGuards_append, textGuards, ha.textGuards, hds.textGuards, List.mem_append,
      Option.mem_toList, List.not_mem_nil, false_or] at he
    rcases he with he | he | he | he | he
    · exact ⟨_, hG e he⟩
    · exact ⟨_, hG e he⟩
    · exact ihb e he
    · exact ⟨_, hG e he⟩
    · exact ih e he
  | empty hn hG ha hds hd he' _ ih =>
    intro e he
    simp only [textGuardsList, textGuards_append, textGuards, ha.textGuards, hds.textGuards, List.mem_append,
      Option.mem_toList, List.not_mem_nil, false_or] at he
    rcases he with he | he | he
    · exact ⟨_, hG e he⟩
    · exact ⟨_, hG e he⟩
    · exact ih e he
  | text ht _ ih =>
    intro e he
    simp only [textGuardsList, textGuards, activeGuard, Option.toList_none, List.nil_append] at he
    exact ih e he
  | trans ht _ ih => exact fun e he => ih e (by simpa [textGuardsList, textGuards] using he)
  | expr _ ih => exact fun e he => ih e (by simpa [textGuardsList, textGuards] using he)
  | python _ ih => exact fun e he => ih e (by simpa [textGuardsList, textGuards] using he)
  | imp _ ih => exact fun e he => ih e (by simpa [textGuardsList, textGuards] using he)
  | incl _ ih => exact fun e he => ih e (by simpa [textGuardsList, textGuards] using he)
  | ext _ ih => exact fun e he => ih e (by simpa [textGuardsList, textGuards] using he)
  | pass _ ih => exact fun e he => ih e (by simpa [textGuardsList, textGuards] using he)
  | call _ _ _ ihb ih =>
    intro e he
    rw [textGuardsList, textGuards, List.mem_append] at he
    exact he.elim (ihb e) (ih e)
  | innerDef _ _ ihb ih =>
    intro e he
    rw [textGuardsList, textGuards, List.mem_append] at he
    exact he.elim (ihb e) (ih e)
  | forN _ _ ihb ih =>
    intro e he
    rw [textGuardsList, textGuards, List.mem_append] at he
    exact he.elim (ihb e) (ih e)
  | withN _ _ ihb ih =>
    intro e he
    rw [textGuardsList, textGuards, List.mem_append] at he
    exact he.elim (ihb e) (ih e)
  | switchN _ _ ihb ih =>
    intro e he
    rw [textGuardsList, textGuards, List.mem_append] at he
    exact he.elim (ihb e) (ih e)
  | caseN _ _ ihb ih =>
    intro e he
    rw [textGuardsList, textGuards, List.mem_append] at he
    exact he.elim (ihb e) (ih e)
  | ifN _ _ ihb ih =>
    intro e he
    rw [textGuardsList, textGuards, List.mem_append] at he
    exact he.elim (ihb e) (ih e)
  | elseN _ _ ihb ih =>
    intro e he
    rw [textGuardsList, textGuards, List.mem_append] at he
    exact he.elim (ihb e) (ih e)

/-! ## Classes -/

theorem mem_insertMethod {C : Type} {k : Str} {v : Str × C} {ms : List (Str × Str × C)} {x : Str × Str × C}
    (h : x ∈ Run.insertMethod k v ms) : x = (k, v) ∨ x ∈ ms := by
  induction ms with
  | nil => simp only [Run.insertMethod, List.mem_singleton] at h; exact .inl h
  | cons y ms ih =>
    obtain ⟨k', v'⟩ := y
    simp only [Run.insertMethod] at h
    split at h
    · exact (List.mem_cons.1 h).imp id (List.mem_cons_of_mem _)
    · split at h
      · exact (List.mem_cons.1 h).imp id id
      · rcases List.mem_cons.1 h with h | h
        · exact .inr (h ▸ List.mem_cons_self)
        · exact (ih h).imp id (List.mem_cons_of_mem _)

theorem mem_methodsOf {C : Type} {ds : List (Str × C)} {x : Str × Str × C} (h : x ∈ Run.methodsOf ds) : x.2 ∈ ds := by
  have : ∀ (ds : List (Str × C)) (ms : List (Str × Str × C)),
      x ∈ ds.foldl (fun ms d => Run.insertMethod (Run.declName d.1) d ms) ms → x ∈ ms ∨ x.2 ∈ ds := by
    intro ds
    induction ds with
    | nil => exact fun ms h => .inl h
    | cons d ds ih =>
      intro ms h
      rcases ih _ h with h | h
      · rcases mem_insertMethod h with rfl | h
        · exact .inr List.mem_cons_self
        · exact .inl h
      · exact .inr (List.mem_cons_of_mem _ h)
  exact (this ds [] h).resolve_left (by simp)

theorem treeClass_ok {t : Tmpl × Dict Val} (h : ∀ d ∈ t.1.defs, Shape L d.body) :
    ∀ m ∈ (treeClass t).methods, Shape L m.2.2 := by
  intro m hm
  have := mem_methodsOf hm
  obtain ⟨d, hd, he⟩ := List.mem_map.1 this
  rw [← he]
  exact h d hd

theorem mem_methodsOf_name {C : Type} {ds : List (Str × C)} {x : Str × Str × C} (h : x ∈ Run.methodsOf ds) :
    x.1 = Run.declName x.2.1 := by
  have : ∀ (ds : List (Str × C)) (ms : List (Str × Str × C)),
      x ∈ ds.foldl (fun ms d => Run.insertMethod (Run.declName d.1) d ms) ms → x ∈ ms ∨ x.1 = Run.declName x.2.1 := by
    intro ds
    induction ds with
    | nil => exact fun ms h => .inl h
    | cons d ds ih =>
      intro ms h
      rcases ih _ h with h | h
      · rcases mem_insertMethod h with rfl | h
        · exact .inr rfl
        · exact .inl h
      · exact .inr h
  exact (this ds [] h).resolve_left (by simp)

/-- The names of `Reserved` are enough for `ProgSafe`. -/
theorem progSafe (S : Run.Source) (ctx : Dict Val) :
    Scope.ProgSafe (Spec.Scope.Reserved S ctx) (Scope.AliasesIn (Spec.Scope.Reserved S ctx) S.aliasFor) (trees S) where
  methods c hc m hm := by
    obtain ⟨t, ht, rfl⟩ := List.mem_map.1 hc
    obtain ⟨d, hd, he⟩ := List.mem_map.1 (mem_methodsOf hm)
    refine ⟨?_, fun n hn => ?_⟩
    · rw [mem_methodsOf_name hm, ← he]
      exact .inr (.inl ⟨t, ht, d, hd, .inl rfl⟩)
    · rw [← he] at hn
      exact .inr (.inl ⟨t, ht, d, hd, .inr hn⟩)
  base c hc := by
    obtain ⟨t, ht, rfl⟩ := List.mem_map.1 hc
    intro k f hk
    exact .inr (.inr (.inr ⟨t, ht, f, hk⟩))
  special n hn := .inl hn

end Kajiki.Wf
