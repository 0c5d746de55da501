import Verif.Spec.Extract
import Verif.Lemmas.DocSem
import Verif.Lemmas.WellFormedDoc
import Verif.Lemmas.Messages

/-!
# What extraction looks at
-/

namespace Kajiki.ExtractL
open Kajiki.Spec.DocSem Kajiki.Spec.Extract Kajiki.DocComp Kajiki.XmlComp

/-- What is looked at, without lines. -/
def items (xs : List Ir) : List Read := (readsList xs).map (·.2)

theorem readsList_append (a b : List Ir) : readsList (a ++ b) = readsList a ++ readsList b := by
  induction a with
  | nil => rfl
  | cons x a ih => rw [List.cons_append, readsList, readsList, ih, List.append_assoc]

theorem items_append (a b : List Ir) : items (a ++ b) = items a ++ items b := by
  simp only [items, readsList_append, List.map_append]

theorem items_cons (x : Ir) (a : List Ir) : items (x :: a) = (reads x).map (·.2) ++ items a := by
  simp only [items, readsList, List.map_append]

theorem items_nil : items [] = [] := rfl

theorem items_one (x : Ir) : items [x] = (reads x).map (·.2) := by rw [items_cons, items_nil, List.append_nil]

theorem items_pieces {m : TextMode} {as : List (Str ⊕ Str)} {xs : List Ir} (h : List.Forall₂ (PieceNode m) as xs) :
    items xs = as.flatMap fun
      | .inl t => if !m.translate || (strip t).isEmpty then [] else [.message t]
      | .inr e => [.expression e] := by
  induction h with
  | nil => rfl
  | @cons a x as xs h _ ih =>
    rw [items_cons, ih, List.flatMap_cons]
    congr 1
    cases a with
    | inl t =>
      obtain ⟨l, rfl⟩ := h
      unfold textNode
      cases m.translate with
      | false => rfl
      | true =>
        dsimp only
        cases hs : (strip t).isEmpty with
        | true => rfl
        | false =>
          simp only [Bool.not_false, Bool.and_self, Bool.not_true, Bool.or_self, if_true, reads, hs]
          rfl
    | inr e =>
      obtain ⟨l, rfl⟩ := h
      rfl

theorem items_text {c : CEnv} {tag d : Str} {xs : List Ir}
    (h : List.Forall₂ (PieceNode ⟨!cdataTags.contains tag, false⟩) (cut c.py d) xs) : items xs = ofText c tag d := by
  rw [items_pieces h]
  unfold ofText
  rw [scriptTag_eq]
  simp only [Bool.not_not]
  rfl

theorem items_attr {c : CEnv} {v : Str} {xs : List Ir} (h : List.Forall₂ (PieceNode ⟨false, true⟩) (cut c.py v) xs) :
    items xs = ofAttr c v := by
  rw [items_pieces h]
  rfl

theorem items_attrs {c : CEnv} {g : Option Str} {kvs : List (Str × Str)} {xs : List Ir} (h : AttrsC c g kvs xs) :
    items xs = kvs.flatMap fun kv => ofAttr c kv.2 := by
  unfold AttrsC at h
  induction h with
  | nil => rfl
  | cons h _ ih =>
    obtain ⟨vs, l, rfl, hv⟩ := h
    rw [items_cons, ih, List.flatMap_cons, ← items_attr hv, reads]
    rfl

theorem items_dyn {c : CEnv} {g : Option Str} {as : Dict Str} {xs : List Ir} (h : DynC c g as xs) : items xs = [] := by
  unfold DynC at h
  split at h
  · subst h; rfl
  · obtain ⟨l, rfl⟩ := h; rfl

theorem items_mark {c : CEnv} {t : String} {xs : List Ir} (h : MarkC c t xs) : items xs = [] := by
  unfold MarkC at h
  split at h
  · obtain ⟨l, rfl⟩ := h; rfl
  · subst h; rfl

theorem items_end {c : CEnv} {t : Str} {g : Option Str} {xs : List Ir} (h : EndC c t g xs) : items xs = [] := by
  unfold EndC at h
  split at h
  · subst h; rfl
  · obtain ⟨l, rfl⟩ := h; rfl

theorem items_script {c : CEnv} {ks : List DNode} {xs : List Ir} (h : ScriptC c.py ks xs) : items xs = ofScript c ks := by
  induction h with
  | nil => rfl
  | cdata _ ih => rw [ih, ofScript]; nofun
  | @text d e l ks xs ys h _ ih =>
    rw [items_append, ih, ofScript]
    congr 1
    generalize cut c.py d = ps at h
    induction h with
    | nil => rfl
    | @cons a x as xs h _ ih =>
      rw [items_cons, ih, List.flatMap_cons]
      congr 1
      cases a <;> obtain ⟨l, rfl⟩ := h <;> rfl

theorem items_filter (xs : List Ir) : items (xs.filter notText) = items xs := by
  induction xs with
  | nil => rfl
  | cons x xs ih =>
    rw [List.filter_cons]
    split
    · rw [items_cons, items_cons, ih]
    · next h =>
      rw [ih, items_cons]
      cases x with
      | text t g l => rfl
      | _ => exact absurd rfl h

/-- What is found in nodes and functions. -/
def found (ys : List Ir) (fs : Dict (List Ir)) : List Read := items ys ++ fs.flatMap fun f => items f.2

/-- All that is wanted is there, and nothing else but calls of blocks. -/
def Fits (w l : List Read) : Prop := (∀ i ∈ w, i ∈ l) ∧ ∀ i ∈ l, i ∈ w ∨ isCall i

theorem Fits.of {w l l' : List Read} (h : Fits w l) (he : ∀ i, i ∈ l' ↔ i ∈ l) : Fits w l' :=
  ⟨fun i hi => (he i).2 (h.1 i hi), fun i hi => h.2 i ((he i).1 hi)⟩

theorem Fits.refl (w : List Read) : Fits w w := ⟨fun _ h => h, fun _ h => .inl h⟩

theorem Fits.append {w w' l l' : List Read} (h : Fits w l) (h' : Fits w' l') : Fits (w ++ w') (l ++ l') := by
  refine ⟨fun i hi => ?_, fun i hi => ?_⟩
  · rw [List.mem_append] at hi ⊢
    exact hi.imp (h.1 i) (h'.1 i)
  · rw [List.mem_append] at hi ⊢
    rcases hi with hi | hi
    · exact (h.2 i hi).imp .inl id
    · exact (h'.2 i hi).imp .inr id

theorem Fits.calls {w l cs : List Read} (h : Fits w l) (hc : ∀ i ∈ cs, isCall i) : Fits w (cs ++ l) := by
  refine ⟨fun i hi => List.mem_append_right _ (h.1 i hi), fun i hi => ?_⟩
  rcases List.mem_append.1 hi with hi | hi
  · exact .inr (hc i hi)
  · exact h.2 i hi

theorem found_append (ys zs : List Ir) (fs gs : Dict (List Ir)) (i : Read) :
    i ∈ found (ys ++ zs) (fs ++ gs) ↔ i ∈ found ys fs ++ found zs gs := by
  simp only [found, items_append, List.flatMap_append, List.mem_append]
  constructor
  · rintro ((h | h) | h | h)
    · exact .inl (.inl h)
    · exact .inr (.inl h)
    · exact .inl (.inr h)
    · exact .inr (.inr h)
  · rintro ((h | h) | h | h)
    · exact .inl (.inl h)
    · exact .inr (.inl h)
    · exact .inl (.inr h)
    · exact .inr (.inr h)

theorem found_leaf (ys : List Ir) : found ys [] = items ys := by
  simp only [found, List.flatMap_nil, List.append_nil]

theorem items_orPass (b : List Ir) : items (if b.isEmpty then [.pass 0] else b) = items b := by
  cases b <;> rfl

theorem block_fits {c : CEnv} {p : Place} {name : Str} {ks : List DNode} {b xs : List Ir} {fs gs : Dict (List Ir)}
    {w : List Read} (h : BlockC c p name ks b xs gs) (hf : Fits w (found b fs)) : Fits w (found xs (fs ++ gs)) := by
  cases h with
  | child hc =>
    refine hf.of fun i => ?_
    simp only [found, items_nil, List.nil_append, List.flatMap_append, List.flatMap_cons, List.flatMap_nil,
      List.append_nil, items_cons, items_orPass, reads, List.map_nil, List.mem_append]
    exact Or.comm
  | here hc =>
    refine Fits.of (hf.calls (cs := [.expression (blockDecl name)]) fun i hi => ?_) fun i => ?_
    · rw [List.mem_singleton] at hi
      subst hi
      exact ⟨name, rfl⟩
    · simp only [found, items_one, reads, List.map_cons, List.map_nil, List.flatMap_append, List.flatMap_cons, List.flatMap_nil,
        List.append_nil, items_orPass, List.mem_append]
      exact or_congr_right Or.comm

theorem Fits.attrs {c : CEnv} {kvs : Dict Str} {w l : List Read} (h : Fits w l) :
    Fits (kvs.flatMap (fun kv => ofAttr c kv.2) ++ w) ((sortItems kvs).flatMap (fun kv => ofAttr c kv.2) ++ l) := by
  refine Fits.append ((Fits.refl _).of fun i => ?_) h
  simp only [List.mem_flatMap]
  exact exists_congr fun kv => and_congr_left fun _ => (Wf.sortItems_perm kvs).mem_iff

mutual
theorem node_fits {c : CEnv} {p : Place} {tag : Str} {x : DNode} {ys : List Ir} {fs : Dict (List Ir)}
    (h : NodeC c p tag x ys fs) : Fits (wanted c tag x) (found ys fs) := by
  cases h with
  | text h => rw [wanted, found_leaf, items_text h]; exact .refl _
  | cdata h => rw [wanted, found_leaf, items_text h]; exact .refl _
  | hidden h => rw [wanted]; exact .refl _
  | comment h => rw [wanted]; exact .refl _
  | «module» h => rw [wanted]; exact .refl _
  | pi h => rw [wanted]; exact .refl _
  | auto ha hk hb => rw [wanted, if_pos ha]; exact block_fits hb (kids_fits hk)
  | content ha hd h1 h2 h3 =>
    rw [wanted, if_neg (by rw [ha]; nofun), hd, found_leaf]
    dsimp only
    rw [h3, if_neg (by nofun)]
    refine Fits.of (Fits.attrs (.refl _)) fun i => ?_
    simp only [items_append, items_cons, items_nil, items_attrs h1, items_dyn h2, reads, List.map_nil, List.map_cons,
      List.nil_append, List.append_nil, List.cons_append]
  | empty ha hd h1 h2 h3 =>
    rw [wanted, if_neg (by rw [ha]; nofun), hd, found_leaf]
    dsimp only
    rw [h3, if_pos rfl]
    have : ∀ (b : Bool) t, (if b then ofScript c [] else wantedAll c true t []) = [] := by
      intro b t
      cases b
      · rw [if_neg (by nofun), wantedAll]
      · rfl
    rw [this]
    refine Fits.of (Fits.attrs (.refl _)) fun i => ?_
    simp only [items_append, items_cons, items_nil, items_attrs h1, items_dyn h2, reads, List.map_nil,
      List.nil_append, List.append_nil, List.cons_append]
  | script ha hd h1 h2 h3 h4 h5 h6 h7 h8 h9 =>
    rw [wanted, if_neg (by rw [ha]; nofun), hd, found_leaf]
    dsimp only
    rw [h3, if_pos rfl, if_pos h5, ← items_script h6]
    refine Fits.of (Fits.attrs (.refl _)) fun i => ?_
    simp only [items_append, items_cons, items_attrs h1, items_dyn h2, items_mark h7, items_mark h8,
      items_end h9, reads, List.map_nil, List.nil_append, List.append_nil, List.cons_append]
  | elem ha hd h1 h2 h3 h4 h5 hk he =>
    rw [wanted, if_neg (by rw [ha]; nofun), hd]
    dsimp only
    rw [h3, if_pos rfl, if_neg (by rw [h5]; nofun)]
    refine Fits.of (Fits.attrs (kids_fits hk)) fun i => ?_
    simp only [found, items_append, items_cons, items_attrs h1, items_dyn h2,
      items_end he, reads, List.map_nil, List.nil_append, List.append_nil, List.cons_append, List.append_assoc]
  | replace ha hd => rw [wanted, if_neg (by rw [ha]; nofun), hd]; exact .refl _
  | imp ha hd => rw [wanted, if_neg (by rw [ha]; nofun), hd]; exact .refl _
  | incl ha hd => rw [wanted, if_neg (by rw [ha]; nofun), hd]; exact .refl _
  | ext ha hd hk => rw [wanted, if_neg (by rw [ha]; nofun), hd, found, items_cons, reads]; exact kids_fits hk
  | block ha hd hk hb => rw [wanted, if_neg (by rw [ha]; nofun), hd]; exact block_fits hb (kids_fits hk)
  | inner ha hd hi hk =>
    rw [wanted, if_neg (by rw [ha]; nofun), hd, found, items_one, reads]; exact kids_fits hk
  | defn ha hd hi hk =>
    rw [wanted, if_neg (by rw [ha]; nofun), hd]
    refine (kids_fits hk).of fun i => ?_
    simp only [found, items_nil, List.nil_append, List.flatMap_append, List.flatMap_cons, List.flatMap_nil,
      List.append_nil, List.mem_append]
    exact Or.comm
  | call ha hd hk =>
    rw [wanted, if_neg (by rw [ha]; nofun), hd, found, items_one, reads]; exact kids_fits hk
  | forD ha hd hk =>
    rw [wanted, if_neg (by rw [ha]; nofun), hd, found, items_one, reads]; exact kids_fits hk
  | withD ha hd hk =>
    rw [wanted, if_neg (by rw [ha]; nofun), hd, found, items_one, reads]; exact kids_fits hk
  | switchD ha hd hk hb =>
    rw [switchBody_eq] at hb
    split at hb
    · cases hb
      rw [wanted, if_neg (by rw [ha]; nofun), hd, found, items_one, reads]
      have := kids_fits hk
      rw [found, ← items_filter] at this
      exact this
    · cases hb
  | caseD ha hd hk =>
    rw [wanted, if_neg (by rw [ha]; nofun), hd, found, items_one, reads]; exact kids_fits hk
  | ifD ha hd hk =>
    rw [wanted, if_neg (by rw [ha]; nofun), hd, found, items_one, reads]; exact kids_fits hk
  | elseD ha hd hk =>
    rw [wanted, if_neg (by rw [ha]; nofun), hd, found, items_one, reads]; exact kids_fits hk
  | nop ha hd hk => rw [wanted, if_neg (by rw [ha]; nofun), hd]; exact kids_fits hk

theorem kids_fits {c : CEnv} {p : Place} {raw : Bool} {tag : Str} {xs : List DNode} {ys : List Ir}
    {fs : Dict (List Ir)} (h : KidsC c p raw tag xs ys fs) : Fits (wantedAll c raw tag xs) (found ys fs) := by
  cases h with
  | nil => rw [wantedAll]; exact .refl _
  | raw h => rw [wantedAll, if_pos rfl, found, items_cons, reads]; exact kids_fits h
  | @cons _ _ _ k ks _ _ _ _ h0 h1 h2 =>
    have he : wantedAll c raw tag (k :: ks) = wanted c tag k ++ wantedAll c raw tag ks := by
      cases k with
      | cdata d l =>
        rw [wantedAll]
        cases raw with
        | true => exact absurd rfl (h0 rfl d l)
        | false => rfl
      | _ => rw [wantedAll]; nofun
    rw [he]
    exact Fits.of ((node_fits h1).append (kids_fits h2)) (found_append _ _ _ _)
end

/-! ## Templates -/

theorem mem_set_self {α : Type} (d : Dict α) (k : Str) (v : α) : (k, v) ∈ d.set k v := by
  induction d with
  | nil => exact List.mem_singleton.2 rfl
  | cons a d ih =>
    obtain ⟨a1, a2⟩ := a
    simp only [Dict.set]
    split
    · next h => subst h; exact List.mem_cons_self
    · exact List.mem_cons_of_mem _ ih

theorem mem_set_other {α : Type} {d : Dict α} {k : Str} {v : α} {x : Str × α} (h : x ∈ d) (hk : x.1 ≠ k) :
    x ∈ d.set k v := by
  induction d with
  | nil => cases h
  | cons a d ih =>
    obtain ⟨a1, a2⟩ := a
    simp only [Dict.set]
    split
    · next he =>
      rcases List.mem_cons.1 h with h | h
      · subst h; exact absurd he hk
      · exact List.mem_cons_of_mem _ h
    · rcases List.mem_cons.1 h with h | h
      · subst h; exact List.mem_cons_self
      · exact List.mem_cons_of_mem _ (ih h)

theorem mem_update_other {α : Type} {d fs : Dict α} {x : Str × α} (h : x ∈ d) (hk : ∀ f ∈ fs, x.1 ≠ f.1) :
    x ∈ Dict.update d fs := by
  unfold Dict.update
  induction fs generalizing d with
  | nil => exact h
  | cons f fs ih =>
    exact ih (mem_set_other h (hk f List.mem_cons_self)) fun g hg => hk g (List.mem_cons_of_mem _ hg)

theorem mem_update_new {α : Type} {d fs : Dict α} {x : Str × α} (h : x ∈ fs) (hn : (fs.map (·.1)).Nodup) :
    x ∈ Dict.update d fs := by
  induction fs generalizing d with
  | nil => cases h
  | cons f fs ih =>
    rw [List.map_cons, List.nodup_cons] at hn
    rcases List.mem_cons.1 h with rfl | h
    · exact mem_update_other (d := d.set x.1 x.2) (mem_set_self _ _ _) fun g hg he =>
        hn.1 (he ▸ List.mem_map_of_mem hg)
    · exact ih (d := d.set f.1 f.2) h hn.2

theorem funs_names {us : List (Str × List Ir)} {fs : List (Str × Part)} (h : FunsR us fs) :
    us.map (·.1) = fs.map (·.1) := by
  unfold FunsR at h
  induction h with
  | nil => rfl
  | cons h _ ih => rw [List.map_cons, List.map_cons, ih, h.1]

theorem items_doctype (c : CEnv) (d : Str) : items (doctypeNode c.mode d) = [] := by
  unfold doctypeNode
  split
  · rfl
  · split <;> rfl

theorem reads_tmpl {t : Template} {u : Tmpl} (h : compileDoc t.conf t.doc = .ok u) (hp : t.placed = true)
    {root : DNode} (hr : t.root? = some root) :
    (∀ i ∈ (readsTmpl u).map (·.2), i ∈ wanted t.conf [] root ∨ isCall i) ∧
    (Distinct t → ∀ i ∈ wanted t.conf [] root, i ∈ (readsTmpl u).map (·.2)) := by
  unfold compileDoc at h
  split at h
  · next root' hroot =>
    have hr' : t.root? = some root' := by rw [root_eq, hroot]
    have : root' = root := by rw [hr] at hr'; cases hr'; rfl
    subst this
    have hmem : root' ∈ t.doc.kids := List.mem_of_mem_filter (p := fun n => !isComment n)
      (by rw [hroot]; exact List.mem_cons_self ..)
    have hpl : (placed t.conf.opts .no [] root').isSome = true := by
      unfold Template.placed at hp
      rw [List.all_eq_true] at hp
      exact hp _ hmem
    split at h
    · cases h
    · next body s hc =>
      cases h
      obtain ⟨fs, hn, hm, hf⟩ := gives_node t.conf ⟨none, false, []⟩ .root [] (fun q hq => by cases hq) root' .no []
        hpl .start body s ⟨rfl, rfl, rfl⟩ hc
      obtain ⟨f1, f2⟩ := node_fits hn
      generalize hb : (if !t.conf.opts.isFragment && !s.isChild then doctypeNode t.conf.mode t.doc.dtd ++ body else body) = b
      have hbi : items b = items body := by
        rw [← hb]
        split
        · rw [items_append, items_doctype]; rfl
        · rfl
      have hmem2 : ∀ i, i ∈ (readsTmpl ⟨s.modPy, (s.funs.set mainDecl b).map fun f => ⟨f.1, f.2, 0⟩⟩).map (·.2) ↔
          ∃ f ∈ s.funs.set mainDecl b, i ∈ items f.2 := by
        intro i
        unfold readsTmpl
        simp only [List.map_flatMap, List.flatMap_map, List.mem_flatMap]
        rfl
      refine ⟨fun i hi => ?_, fun hdist i hi => ?_⟩
      · obtain ⟨f, hf1, hf2⟩ := (hmem2 i).1 hi
        have key : i ∈ found body fs := by
          unfold found
          rcases mem_set hf1 with hf1 | hf1
          · rw [hf] at hf1
            rcases mem_update hf1 with hf1 | ⟨g, hg, he⟩
            · simp only [CState.start, List.mem_singleton] at hf1
              subst hf1
              cases hf2
            · rw [he] at hf2
              exact List.mem_append_right _ (List.mem_flatMap.2 ⟨g, hg, hf2⟩)
          · rw [hf1, hbi] at hf2
            exact List.mem_append_left _ hf2
        exact f2 i key
      · refine (hmem2 i).2 ?_
        have hd := hdist root' hr
        rw [← funs_names (node_funs hn hpl), List.nodup_cons] at hd
        rcases List.mem_append.1 (f1 i hi) with h | h
        · exact ⟨_, mem_set_self _ _ _, by rw [hbi]; exact h⟩
        · obtain ⟨f, hf1, hf2⟩ := List.mem_flatMap.1 h
          refine ⟨f, mem_set_other ?_ (fun he => hd.1 ?_), hf2⟩
          · rw [hf]
            exact mem_update_new hf1 hd.2
          · exact (show f.1 = "__main__()".toList from he) ▸ List.mem_map_of_mem hf1
  · cases h

/-! ## The loop -/

/-- The messages among what is looked at. -/
def messageOf : Nat × Read → Option (Nat × Str)
  | (ln, .message t) => some (ln, t)
  | _ => none

/-- What `extract` yields for one of them. -/
def yields {M : Type} (python : Str → List M × Bool) : Nat × Read → List (Nat × (Str ⊕ M))
  | (ln, .message t) => [(ln, .inl t)]
  | (ln, .expression e) => (python e).1.map fun m => (ln, .inr m)

/-- The expression cannot be read. -/
def fails {M : Type} (python : Str → List M × Bool) : Nat × Read → Bool
  | (_, .message _) => false
  | (_, .expression e) => (python e).2

theorem loop_off {M : Type} (xs : List (Nat × Read)) :
    extractLoop (M := M) none xs = ((xs.filterMap messageOf).map fun m => (m.1, .inl m.2), none) := by
  induction xs with
  | nil => rfl
  | cons x xs ih =>
    obtain ⟨ln, r⟩ := x
    cases r with
    | message t => rw [extractLoop, ih]; rfl
    | expression e => rw [extractLoop, ih]; rfl

theorem loop_fine {M : Type} {python : Str → List M × Bool} {xs : List (Nat × Read)}
    (h : ∀ x ∈ xs, fails python x = false) : extractLoop (some python) xs = (xs.flatMap (yields python), none) := by
  induction xs with
  | nil => rfl
  | cons x xs ih =>
    have ih := ih fun y hy => h y (List.mem_cons_of_mem _ hy)
    have h1 := h x List.mem_cons_self
    obtain ⟨ln, r⟩ := x
    cases r with
    | message t => rw [extractLoop, ih]; rfl
    | expression e =>
      rw [extractLoop]
      dsimp only
      rw [if_neg (by rw [show (python e).2 = false from h1]; nofun), ih]
      rfl

theorem loop_stops {M : Type} {python : Str → List M × Bool} {xs ys : List (Nat × Read)} {x : Nat × Read}
    (h : ∀ y ∈ xs, fails python y = false) (hx : fails python x = true) :
    extractLoop (some python) (xs ++ x :: ys) = ((xs ++ [x]).flatMap (yields python), some x.1) := by
  induction xs with
  | nil =>
    obtain ⟨ln, r⟩ := x
    cases r with
    | message t => cases hx
    | expression e =>
      rw [List.nil_append, extractLoop]
      dsimp only
      rw [if_pos (show (python e).2 = true from hx)]
      simp only [List.nil_append, List.flatMap_cons, List.flatMap_nil, List.append_nil]
      rfl
  | cons z xs ih =>
    have ih := ih fun y hy => h y (List.mem_cons_of_mem _ hy)
    have h1 := h z List.mem_cons_self
    obtain ⟨ln, r⟩ := z
    cases r with
    | message t => rw [List.cons_append, extractLoop, ih]; rfl
    | expression e =>
      rw [List.cons_append, extractLoop]
      dsimp only
      rw [if_neg (by rw [show (python e).2 = false from h1]; nofun), ih]
      rfl

/-! ## Texts are those of `extractTmpl` -/

/-- The messages extracted from a stream. -/
def toks (xs : List FTok) : List (Nat × Str) := xs.filterMap extractTok

theorem toks_append (xs ys : List FTok) : toks (xs ++ ys) = toks xs ++ toks ys := by simp [toks]

theorem toks_cons (x : FTok) (xs : List FTok) : toks (x :: xs) = (extractTok x).toList ++ toks xs := by
  unfold toks
  cases h : extractTok x <;> simp [h]

theorem toks_optimizeAux (last : Option FTok) (xs : List FTok) :
    toks (optimizeAux last xs) = toks (last.toList ++ xs) := by
  induction xs generalizing last with
  | nil => simp [optimizeAux]
  | cons x xs ih =>
    unfold optimizeAux
    split
    · next h => cases h
    · next h => cases h; rw [ih]; rfl
    · next h =>
      cases h
      split
      · rw [ih]
        simp [toks_cons, extractTok]
      · rw [toks_cons, ih]
        simp [toks_cons]
    · next h _ _ heq =>
      cases heq
      rw [toks_cons, ih]
      simp [toks_cons]

theorem toks_optimize (xs : List FTok) : toks (optimize xs) = toks xs := toks_optimizeAux none xs

theorem toks_orPass (xs : List FTok) : toks (orPass xs) = toks xs := by
  cases xs <;> rfl

theorem toks_nil : toks [] = [] := rfl

theorem toks_attrStream (n m : Str) (ln : Nat) (v : List FTok) (e : Bool) (h : e = true → toks v = []) :
    toks (attrStream n m ln v e) = toks v := by
  unfold attrStream
  cases e with
  | true => rw [h rfl]; rfl
  | false =>
    simp only [Bool.false_eq_true, if_false, toks_cons, toks_append, toks_optimize]
    simp [extractTok, attrTail, toks_nil]

mutual
theorem toks_flat (x : Ir) : toks (flat x) = (reads x).filterMap messageOf := by
  cases x with
  | text t g l => rfl
  | trans t l => simp only [flat, reads]; split <;> rfl
  | expr c s l => simp only [flat, reads]; cases s <;> rfl
  | attr n m g v l =>
    simp only [flat, reads]
    have h : v.isEmpty = true → toks (flatList v) = [] := by
      intro h; cases v
      · rfl
      · cases h
    split
    · rw [toks_cons, toks_cons, toks_append, toks_optimize, toks_attrStream _ _ _ _ _ h, toks_flatList]
      simp [toks_cons, extractTok, toks_nil]
    · rw [toks_attrStream _ _ _ _ _ h, toks_flatList]
  | attrs c m g l => simp only [flat, reads]; split <;> rfl
  | python ls l => cases ls <;> rfl
  | imp n a l => rfl
  | incl n l => rfl
  | ext n l => rfl
  | innerDef d b l =>
    simp only [flat, reads]
    rw [toks_cons, toks_cons, toks_append, toks_orPass, toks_optimize, toks_flatList]
    simp [toks_cons, extractTok, toks_nil]
  | pass l => rfl
  | withN vs b l =>
    simp only [flat, reads]
    rw [toks_cons, toks_append, toks_optimize, toks_flatList]
    simp [toks_cons, extractTok, toks_nil]
  | switchN e b l =>
    simp only [flat, reads]
    rw [toks_cons, toks_append, toks_optimize, toks_flatList]
    simp [toks_cons, extractTok, toks_nil]
  | _ =>
    simp only [flat, reads]
    rw [toks_cons, toks_cons, toks_append, toks_optimize, toks_flatList]
    simp [toks_cons, extractTok, toks_nil]

theorem toks_flatList (xs : List Ir) : toks (flatList xs) = (readsList xs).filterMap messageOf := by
  cases xs with
  | nil => rfl
  | cons x xs => simp only [flatList, readsList, toks_append, toks_flat, toks_flatList, List.filterMap_append]
end

theorem toks_flatDef (d : Def) : toks (flatDef d) = (readsList d.body).filterMap messageOf := by
  unfold flatDef bodyIter
  rw [toks_cons, toks_cons, toks_append, toks_orPass, toks_optimize, toks_flatList]
  simp [toks_cons, extractTok, toks_nil]

theorem toks_defs (ds : List Def) :
    toks (ds.flatMap flatDef) = (ds.flatMap fun d => readsList d.body).filterMap messageOf := by
  induction ds with
  | nil => rfl
  | cons d ds ih => simp [toks_append, toks_flatDef, ih]

theorem extractTmpl_reads (t : Tmpl) : extractTmpl t = (readsTmpl t).filterMap messageOf := by
  show toks (flatTmpl t) = _
  unfold flatTmpl readsTmpl
  rw [toks_append, toks_cons, toks_cons, toks_append, toks_optimize, toks_defs]
  have : ∀ ps : List (List Str × Nat),
      toks (ps.map fun p => .other (if p.1.isEmpty then [] else [(0, .pyChunk p.1)]) p.2) = [] := by
    intro ps
    induction ps with
    | nil => rfl
    | cons p ps ih =>
      simp only [List.map_cons, toks_cons, ih]
      split <;> rfl
  rw [this]
  simp [toks_cons, extractTok, toks_nil]

end Kajiki.ExtractL
