import Verif.Lemmas.DocComp
import Verif.Lemmas.SemList
import Verif.Lemmas.Compile
import Verif.Lemmas.XmlKeeps

/-!
# Compiled documents mean what the documents mean
-/

namespace Kajiki.DocComp
open Kajiki.Spec.DocSem Kajiki.XmlComp Kajiki.Run Kajiki.Spec.XmlCompile
open Kajiki.Spec.Sem (MT sem semList semElse semCases semBody semCall casesOk casesIn textGuards textGuardsList
  shows showsAny)

/-! ## Directives -/

theorem dirOf_none {tag : Str} (h : (!"py:".toList.isPrefixOf tag) = true) : dirOf tag = none := by
  cases hd : dirOf tag with
  | none => rfl
  | some d =>
    have := Dict.get_eq_some_mem hd
    have all : ∀ e ∈ Spec.DocSem.directives, "py:".toList.isPrefixOf e.1 = true := by decide +kernel
    rw [all _ this] at h
    cases h

theorem not_auto {o : Opts} {sw : Sw} {prev t : Str} {as : Dict Str} {l : Nat} {ks : List DNode}
    (h : (placed o sw prev (.elem t as l ks)).isSome = true) (ha : auto o t as = true) :
    dirOf t = none ∧ (placedAll o .no [] ks).isSome = true := by
  unfold placed at h
  rw [if_pos ha] at h
  split at h
  · next h' =>
    rw [Bool.and_eq_true] at h'
    exact ⟨dirOf_none h'.1, h'.2⟩
  · cases h

theorem placed_none {o : Opts} {sw : Sw} {prev t : Str} {as : Dict Str} {l : Nat} {ks : List DNode}
    (h : (placed o sw prev (.elem t as l ks)).isSome = true) (ha : auto o t as = false) (hd : dirOf t = none)
    (hc : ownContent o t as = false) : (placedAll o .no [] ks).isSome = true := by
  unfold placed at h
  rw [if_neg (by simp [ha]), hd] at h
  simp only at h
  split at h
  · next h' =>
    rw [Bool.and_eq_true, hc] at h'
    exact h'.2
  · cases h

/-- The content of most directives. -/
theorem placed_dir {o : Opts} {sw : Sw} {prev t : Str} {as : Dict Str} {l : Nat} {ks : List DNode} {d : Dir}
    (h : (placed o sw prev (.elem t as l ks)).isSome = true) (ha : auto o t as = false) (hd : dirOf t = some d)
    (h1 : d ≠ .replace) (h2 : d ≠ .imp) (h3 : d ≠ .incl) (h4 : d ≠ .switchD) (h5 : d ≠ .nop) :
    (placedAll o .no [] ks).isSome = true := by
  unfold placed at h
  rw [if_neg (by simp [ha]), hd] at h
  cases d <;> simp only at h <;> first | contradiction | skip
  all_goals
    split at h
    · next h' =>
      first
        | exact h'
        | (rw [Bool.and_eq_true] at h'; exact h'.2)
    · cases h

theorem placed_switch {o : Opts} {sw : Sw} {prev t : Str} {as : Dict Str} {l : Nat} {ks : List DNode}
    (h : (placed o sw prev (.elem t as l ks)).isSome = true) (ha : auto o t as = false)
    (hd : dirOf t = some .switchD) : (placedAll o .cases [] ks).isSome = true := by
  unfold placed at h
  rw [if_neg (by simp [ha]), hd] at h
  simp only at h
  split at h
  · next h' => exact h'
  · cases h

theorem placed_nop {o : Opts} {sw : Sw} {prev t : Str} {as : Dict Str} {l : Nat} {ks : List DNode}
    (ha : auto o t as = false) (hd : dirOf t = some .nop) :
    placed o sw prev (.elem t as l ks) = placedAll o sw [] ks := by
  unfold placed
  rw [if_neg (by simp [ha]), hd]

theorem placed_else {o : Opts} {prev t : Str} {as : Dict Str} {l : Nat} {ks : List DNode}
    (h : (placed o .no prev (.elem t as l ks)).isSome = true) (ha : auto o t as = false)
    (hd : dirOf t = some .elseD) : prev = "py:if".toList := by
  unfold placed at h
  rw [if_neg (by simp [ha]), hd] at h
  simp only at h
  split at h
  · split at h
    · next h' => exact h'
    · cases h
  · cases h

theorem placed_case_no {o : Opts} {prev t : Str} {as : Dict Str} {l : Nat} {ks : List DNode}
    (h : (placed o .no prev (.elem t as l ks)).isSome = true) (ha : auto o t as = false)
    (hd : dirOf t = some .caseD) : False := by
  unfold placed at h
  rw [if_neg (by simp [ha]), hd] at h
  simp only at h
  rw [if_neg (by simp)] at h
  cases h

theorem placedAll_cons {o : Opts} {sw : Sw} {prev : Str} {x : DNode} {xs : List DNode}
    (h : (placedAll o sw prev (x :: xs)).isSome = true) :
    ∃ sw', placed o sw prev x = some sw' ∧ (placedAll o sw' (tagOf x) xs).isSome = true := by
  unfold placedAll at h
  cases hx : placed o sw prev x with
  | none => rw [hx] at h; cases h
  | some sw' => rw [hx] at h; exact ⟨sw', rfl, h⟩

theorem isSome_of_eq {α : Type} {x : Option α} {a : α} (h : x = some a) : x.isSome = true := by rw [h]; rfl

mutual
/-- Outside of a switch it stays that way. -/
theorem placed_no {o : Opts} {prev : Str} {x : DNode} {sw : Sw} (h : placed o .no prev x = some sw) : sw = .no := by
  cases x with
  | elem t as l ks =>
    unfold placed at h
    split at h
    · split at h
      · exact (Option.some.inj h).symm
      · cases h
    · split at h
      case h_5 =>
        rw [if_neg (by simp)] at h
        cases h
      case h_8 => exact placedAll_no h
      all_goals
        first
          | exact (Option.some.inj h).symm
          | (split at h
             · first
                | exact (Option.some.inj h).symm
                | (simp only at h
                   split at h
                   · exact (Option.some.inj h).symm
                   · cases h)
             · cases h)
  | _ => exact (Option.some.inj (by simpa only [placed] using h)).symm

theorem placedAll_no {o : Opts} {prev : Str} {xs : List DNode} {sw : Sw}
    (h : placedAll o .no prev xs = some sw) : sw = .no := by
  cases xs with
  | nil => exact (Option.some.inj (by simpa only [placedAll] using h)).symm
  | cons x xs =>
    rw [placedAll] at h
    cases hx : placed o .no prev x with
    | none => rw [hx] at h; cases h
    | some sw' =>
      rw [hx] at h
      have := placed_no hx
      subst this
      exact placedAll_no h
end

/-! ## Lists of nodes -/

theorem startsElse_append {a b : List Ir} (h : startsElse (a ++ b) = true) :
    startsElse a = true ∨ startsElse b = true := by
  induction a with
  | nil => exact Or.inr h
  | cons x a ih =>
    cases x
    case elseN => exact Or.inl rfl
    case python ls l =>
      cases ls with
      | nil => exact ih h
      | cons _ _ => simp [startsElse] at h
    all_goals simp [startsElse] at h

theorem piece_starts {m : TextMode} {as : List (Str ⊕ Str)} {xs : List Ir} (h : List.Forall₂ (PieceNode m) as xs) :
    startsElse xs = false := by
  cases h with
  | nil => rfl
  | @cons a x as xs h _ =>
    cases a with
    | inl t =>
      obtain ⟨l, rfl⟩ := h
      unfold textNode
      split <;> rfl
    | inr e =>
      obtain ⟨l, rfl⟩ := h
      rfl

theorem no_tag : ¬([] : Str) = "py:if".toList := by decide +kernel

theorem if_tag : dirOf "py:if".toList = some .ifD := by decide +kernel

/-- A compiled `py:if`. -/
theorem if_inv {c : CEnv} {p : Place} {tag : Str} {x : DNode} {ys : List Ir} {fs : Dict (List Ir)}
    (h : NodeC c p tag x ys fs) {sw : Sw} {prev : Str} (hp : (placed c.opts sw prev x).isSome = true)
    (ht : tagOf x = "py:if".toList) :
    ∃ t as l ks l' b, x = .elem t as l ks ∧ auto c.opts t as = false ∧ dirOf t = some .ifD ∧
      KidsC c p false t ks b fs ∧ ys = [.ifN (attr as "test") b l'] := by
  have hd : ∀ t as l ks, x = .elem t as l ks → dirOf t = some .ifD := by
    rintro t as l ks rfl
    have : t = "py:if".toList := ht
    rw [this]
    exact if_tag
  cases h with
  | ifD h1 h2 h3 => exact ⟨_, _, _, _, _, _, rfl, h1, h2, h3, rfl⟩
  | auto h1 _ _ =>
    have h2 := hd _ _ _ _ rfl
    rw [(not_auto hp h1).1] at h2
    cases h2
  | text => exact absurd ht no_tag
  | cdata => exact absurd ht no_tag
  | hidden => exact absurd ht no_tag
  | comment => exact absurd ht no_tag
  | «module» => exact absurd ht no_tag
  | pi => exact absurd ht no_tag
  | _ =>
    have h2 := hd _ _ _ _ rfl
    simp_all

mutual
theorem node_starts {c : CEnv} {p : Place} {tag : Str} {x : DNode} {ys : List Ir} {fs : Dict (List Ir)}
    (h : NodeC c p tag x ys fs) {prev : Str} (hp : (placed c.opts .no prev x).isSome = true)
    (hs : startsElse ys = true) : prev = "py:if".toList ∧
      ∃ t as l ks l' b, x = .elem t as l ks ∧ auto c.opts t as = false ∧ dirOf t = some .elseD ∧
        KidsC c p false t ks b fs ∧ ys = [.elseN b l'] := by
  cases h with
  | elseD h1 h2 h3 => exact ⟨placed_else hp h1 h2, _, _, _, _, _, _, rfl, h1, h2, h3, rfl⟩
  | text h => rw [piece_starts h] at hs; cases hs
  | cdata h => rw [piece_starts h] at hs; cases hs
  | pi h =>
    revert hs
    generalize (pyLines (strip _)).2 = ls
    cases ls <;> simp [startsElse]
  | auto h1 h2 h3 =>
    cases h3 with
    | child => cases hs
    | here => cases hs
  | block h1 h2 h3 h4 =>
    cases h4 with
    | child => cases hs
    | here => cases hs
  | nop h1 h2 h3 =>
    rw [placed_nop h1 h2] at hp
    have := (kids_starts h3 hp hs).1
    exact absurd this (by decide +kernel)
  | _ => cases hs

theorem kids_starts {c : CEnv} {p : Place} {raw : Bool} {tag : Str} {xs : List DNode} {ys : List Ir}
    {fs : Dict (List Ir)} (h : KidsC c p raw tag xs ys fs) {prev : Str}
    (hp : (placedAll c.opts .no prev xs).isSome = true)
    (hs : startsElse ys = true) : prev = "py:if".toList ∧
      ∃ t as l ks l' b xs' gs zs, xs = .elem t as l ks :: xs' ∧ auto c.opts t as = false ∧ dirOf t = some .elseD ∧
        KidsC c p false t ks b gs ∧ ys = .elseN b l' :: zs := by
  cases h with
  | nil => cases hs
  | raw h => cases hs
  | cons h0 h1 h2 =>
    obtain ⟨sw', hp1, hp2⟩ := placedAll_cons hp
    have hp1' := isSome_of_eq hp1
    have := placed_no hp1
    subst this
    rcases startsElse_append hs with hs1 | hs1
    · obtain ⟨he, t, as, l, ks, l', b, rfl, ha, hd, hk, rfl⟩ := node_starts h1 hp1' hs1
      exact ⟨he, _, _, _, _, _, _, _, _, _, rfl, ha, hd, hk, rfl⟩
    · obtain ⟨he, _⟩ := kids_starts h2 hp2 hs1
      obtain ⟨t, as, l, ks, l', b, rfl, ha, hd, hk, rfl⟩ := if_inv h1 hp1' he
      cases hs
end

theorem kids_not {c : CEnv} {p : Place} {raw : Bool} {tag : Str} {xs : List DNode} {ys : List Ir}
    {fs : Dict (List Ir)} (h : KidsC c p raw tag xs ys fs) {prev : Str}
    (hp : (placedAll c.opts .no prev xs).isSome = true) (hn : ¬prev = "py:if".toList) : startsElse ys = false := by
  cases hs : startsElse ys with
  | false => rfl
  | true => exact absurd (kids_starts h hp hs).1 hn

/-! ## Related bodies -/

/-- The compiled body of a function. -/
def BodyR (b : List Ir) : Part → Prop
  | .main c dt root => ∃ ys fs l, NodeC c .root [] root ys fs ∧ (placed c.opts .no [] root).isSome = true ∧
      b = (if dt.isEmpty then [] else [.text dt none l]) ++ ys
  | .body c p tag ks => ∃ fs, KidsC c p false tag ks b fs ∧ (placedAll c.opts .no [] ks).isSome = true
  | .block c p tag name ks => ∃ b0 fs l, KidsC c p false tag ks b0 fs ∧
      (placedAll c.opts .no [] ks).isSome = true ∧
      b = (if (afterAll c.opts p ks).child
        then [.python (pyLines ("parent_block=parent.".toList ++ blockName name)).2 l] else []) ++
        if b0.isEmpty then [.pass 0] else b0

section
variable {W : Type} {P : Prog (List Ir)} {Q : Prog Part} (hP : ProgRel BodyR P Q) (O : Oracle W)
  {call : Mode → Nat → List Val → MT W Unit} {call' : Mode → Nat → List Val → MD W Unit}
  (hcall : ∀ mode f as, Rel BodyR (call mode f as) (call' mode f as))

theorem rel_test (env : Env) (e : Str) :
    Rel BodyR (Spec.Sem.test O env e : MT W Bool) (Spec.DocSem.test O env e) :=
  (Rel.evalM O env e).bind fun _ => Rel.pure _

include hcall in
theorem rel_escaped (env : Env) (e : Str) :
    Rel BodyR (M.bind (evalM O env e) fun v => emit call env.mode (escape v)) (escaped O call' env e) :=
  (Rel.evalM O env e).bind fun _ => Rel.emit hcall _ _

include hcall in
theorem rel_unescaped (env : Env) (e : Str) :
    Rel BodyR (M.bind (evalM O env e) fun v => emit call env.mode v) (unescaped O call' env e) :=
  (Rel.evalM O env e).bind fun _ => Rel.emit hcall _ _

theorem rel_say (t : Str) : Rel BodyR (M.tell (.chunk t) : MT W Unit) (say t) := Rel.tell _

theorem rel_append {env : Env} {a b : List Ir} {m : MD W Unit} {n : Unit → MD W Unit} (h : startsElse b = false)
    (ha : Rel BodyR (semList P O call env a) m) (hb : Rel BodyR (semList P O call env b) (n ())) :
    Rel BodyR (semList P O call env (a ++ b)) (M.bind m n) := by
  rw [semList_append P O call env h]
  exact ha.bind fun _ => hb

theorem semList_one (env : Env) (x : Ir) : semList P O call env [x] = sem P O call env (M.pure ()) x := by
  rw [semList, semList, M.bind_pure, semElse_of_not P O call env rfl]

theorem rel_cons {env : Env} {x : Ir} {b : List Ir} {m : MD W Unit} {n : Unit → MD W Unit} (h : startsElse b = false)
    (ha : Rel BodyR (sem P O call env (M.pure ()) x) m) (hb : Rel BodyR (semList P O call env b) (n ())) :
    Rel BodyR (semList P O call env (x :: b)) (M.bind m n) := by
  have : x :: b = [x] ++ b := rfl
  rw [this]
  refine rel_append O h ?_ hb
  rw [semList_one]
  exact ha

theorem rel_nil (env : Env) : Rel BodyR (semList P O call env []) (M.pure () : MD W Unit) := by
  rw [semList]
  exact Rel.pure _

/-- A part of a text. -/
def sayPiece (call' : Mode → Nat → List Val → MD W Unit) (env : Env) (m : TextMode) : Str ⊕ Str → MD W Unit
  | .inl t => if m.translate then saying O call' env t else say t
  | .inr e => if m.safe then unescaped O call' env e else escaped O call' env e

include hcall in
theorem rel_piece (env : Env) {m : TextMode} {a : Str ⊕ Str} {x : Ir} (h : PieceNode m a x) :
    Rel BodyR (sem P O call env (M.pure ()) x) (sayPiece O call' env m a) := by
  unfold sayPiece
  cases a with
  | inl t =>
    obtain ⟨l, rfl⟩ := h
    simp only [textNode, saying]
    cases hm : m.translate with
    | false =>
      simp only [Bool.false_and, Bool.false_eq_true, if_false, sem, activeGuard]
      exact rel_say t
    | true =>
      cases hs : (strip t).isEmpty with
      | true =>
        simp only [Bool.not_true, Bool.and_false, Bool.false_eq_true, if_false, if_true, sem, activeGuard]
        exact rel_say t
      | false =>
        simp only [Bool.not_false, Bool.and_true, if_true, sem, hs, Bool.false_eq_true, if_false]
        exact (Rel.gettextM O env t).bind fun _ => Rel.emit hcall _ _
  | inr e =>
    obtain ⟨l, rfl⟩ := h
    simp only [sem]
    cases m.safe with
    | false => exact rel_escaped O hcall env e
    | true => exact rel_unescaped O hcall env e

include hcall in
theorem rel_pieces (env : Env) {m : TextMode} {as : List (Str ⊕ Str)} {xs : List Ir}
    (h : List.Forall₂ (PieceNode m) as xs) :
    Rel BodyR (semList P O call env xs) (M.each (sayPiece O call' env m) as) := by
  induction h with
  | nil => exact rel_nil O env
  | cons h hs ih =>
    rw [M.each]
    exact rel_cons O (piece_starts hs) (rel_piece O hcall env h) ih

include hcall in
theorem rel_text (c : CEnv) (env : Env) (tag d : Str) {xs : List Ir}
    (h : List.Forall₂ (PieceNode ⟨!cdataTags.contains tag, false⟩) (cut c.py d) xs) :
    Rel BodyR (semList P O call env xs) (text O call' c env tag d) := by
  have := rel_pieces (P := P) O hcall env h
  unfold text
  rw [scriptTag_eq]
  refine cast ?_ this
  congr 2
  funext a
  cases a with
  | inl t => cases cdataTags.contains tag <;> rfl
  | inr e => rfl

/-! ## Tags -/

theorem keepTag_active (as : Dict Str) : activeGuard (keepTag as) = keepTag as := by
  unfold keepTag
  cases Dict.get as "py:strip".toList with
  | none => rfl
  | some e =>
    simp only [Option.map_some]
    split <;> rfl

theorem rel_under {env : Env} {g : Option Str} {x : Ir} {m : MT W Unit} {n : MD W Unit}
    (hx : sem P O call env (M.pure ()) x = match g with
      | some g => M.bind (Spec.Sem.test O env g) fun c => if c then m else M.pure ()
      | none => m)
    (h : Rel BodyR m n) : Rel BodyR (sem P O call env (M.pure ()) x) (under O env g n) := by
  rw [hx]
  cases g with
  | none => exact h
  | some g =>
    refine (rel_test O env g).bind fun b => ?_
    cases b
    · exact Rel.pure _
    · exact h

theorem rel_tag (env : Env) (as : Dict Str) (t : Str) (l : Nat) :
    Rel BodyR (sem P O call env (M.pure ()) (.text t (keepTag as) l)) (under O env (keepTag as) (say t)) := by
  refine rel_under O (m := M.tell (.chunk t)) ?_ (rel_say t)
  rw [sem, keepTag_active]
  cases keepTag as <;> rfl

theorem pieces_show {m : TextMode} {as : List (Str ⊕ Str)} {xs : List Ir} (h : List.Forall₂ (PieceNode m) as xs) :
    showsAny xs = !as.isEmpty := by
  cases h with
  | nil => rfl
  | @cons a x as xs h hs =>
    have : shows x = true := by
      cases a with
      | inl t =>
        obtain ⟨l, rfl⟩ := h
        unfold textNode
        split <;> rfl
      | inr e => obtain ⟨l, rfl⟩ := h; rfl
    simp [showsAny, this]

include hcall in
theorem rel_attr (c : CEnv) (env : Env) (as : Dict Str) (k v : Str) (vs : List Ir) (l : Nat)
    (h : List.Forall₂ (PieceNode ⟨false, true⟩) (cut c.py v) vs) :
    Rel BodyR (sem P O call env (M.pure ()) (.attr k c.mode (keepTag as) vs l))
      (attrPart O call' c env (keepTag as) k v) := by
  refine rel_under O (m := M.bind (collectM env fun env =>
    if vs.isEmpty then M.tell (.chunk []) else reading (showsAny vs) (semList P O call env vs))
    fun _ => attrM env k c.mode) ?_ ?_
  · rw [sem, keepTag_active]
    cases keepTag as with
    | none => simp only [M.bind_pure]
    | some g => rfl
  · refine Rel.bind (RelAt.collectM stable_true fun fr => ?_) fun _ => Rel.attrM _ _ _
    unfold attrValue
    have he : vs.isEmpty = (cut c.py v).isEmpty := by
      revert h
      generalize cut c.py v = as
      intro h
      cases h <;> rfl
    rw [he, pieces_show h]
    split
    · exact rel_say []
    · next hn =>
      rw [Bool.not_eq_true] at hn
      rw [hn, Bool.not_false, reading_true]
      refine cast ?_ (rel_pieces (P := P) O hcall { env with frame := fr, mode := .collect } h)
      congr 2

theorem attrs_starts {c : CEnv} {g : Option Str} {kvs : List (Str × Str)} {xs : List Ir} (h : AttrsC c g kvs xs) :
    startsElse xs = false := by
  cases h with
  | nil => rfl
  | cons h _ =>
    obtain ⟨vs, l, rfl, _⟩ := h
    rfl

theorem dyn_starts {c : CEnv} {g : Option Str} {as : Dict Str} {xs : List Ir} (h : DynC c g as xs) :
    startsElse xs = false := by
  unfold DynC at h
  split at h
  · subst h; rfl
  · obtain ⟨l, rfl⟩ := h; rfl

include hcall in
theorem rel_attrs (c : CEnv) (env : Env) (as : Dict Str) (kvs : List (Str × Str)) (xs : List Ir)
    (h : AttrsC c (keepTag as) kvs xs) :
    Rel BodyR (semList P O call env xs)
      (M.each (fun kv => attrPart O call' c env (keepTag as) kv.1 kv.2) kvs) := by
  induction kvs generalizing xs with
  | nil => cases h; exact rel_nil O env
  | cons kv kvs ih =>
    cases h with
    | cons h hs =>
      obtain ⟨vs, l, rfl, hv⟩ := h
      rw [M.each]
      exact rel_cons O (attrs_starts hs) (rel_attr O hcall c env as _ _ _ _ hv) (ih _ hs)

theorem rel_dyn (c : CEnv) (env : Env) (as : Dict Str) (xs : List Ir) (h : DynC c (keepTag as) as xs) :
    Rel BodyR (semList P O call env xs) (if (attr as "py:attrs").isEmpty then M.pure ()
      else under O env (keepTag as) (attrsM O env (attr as "py:attrs") c.mode)) := by
  unfold DynC at h
  split at h
  · next he => subst h; rw [if_pos he]; exact rel_nil O env
  · next he =>
    obtain ⟨l, rfl⟩ := h
    rw [if_neg he, semList_one]
    refine rel_under O (m := attrsM O env (attr as "py:attrs") c.mode) ?_ (Rel.attrsM O env _ _)
    rw [sem, keepTag_active]
    cases keepTag as with
    | none => simp only [M.bind_pure]
    | some g => rfl

theorem append_false {a b : List Ir} (h : startsElse a = false) (h2 : startsElse b = false) :
    startsElse (a ++ b) = false := by
  cases hs : startsElse (a ++ b) with
  | false => rfl
  | true => rcases startsElse_append hs with h' | h' <;> simp_all

include hcall in
theorem rel_start (c : CEnv) (env : Env) (t : Str) (as : Dict Str) {as' ds b : List Ir} {l1 : Nat}
    {n : Unit → MD W Unit}
    (h1 : AttrsC c (keepTag as) (sortItems (as.filter fun kv => !special kv.1)) as')
    (h2 : DynC c (keepTag as) as ds) (hb : startsElse b = false) (h : Rel BodyR (semList P O call env b) (n ())) :
    Rel BodyR (semList P O call env (.text ('<' :: t) (keepTag as) l1 :: as' ++ ds ++ b))
      (M.bind (startTag O call' c env t as) n) := by
  refine rel_append O hb ?_ h
  unfold startTag
  rw [List.cons_append]
  exact rel_cons O (append_false (attrs_starts h1) (dyn_starts h2)) (rel_tag O env as _ _)
    (rel_append O (dyn_starts h2) (rel_attrs O hcall c env as _ _ h1) (rel_dyn O c env as _ h2))

theorem rel_end (c : CEnv) (env : Env) (t : Str) (as : Dict Str) (xs : List Ir) (h : EndC c t (keepTag as) xs) :
    Rel BodyR (semList P O call env xs)
      (if html c.mode && void t then M.pure () else under O env (keepTag as) (say (close t))) := by
  unfold EndC at h
  split at h
  · next he => subst h; rw [if_pos he]; exact rel_nil O env
  · next he =>
    obtain ⟨l, rfl⟩ := h
    rw [if_neg he, semList_one]
    exact rel_tag O env as _ _

theorem end_starts {c : CEnv} {t : Str} {g : Option Str} {xs : List Ir} (h : EndC c t g xs) :
    startsElse xs = false := by
  unfold EndC at h
  split at h
  · subst h; rfl
  · obtain ⟨l, rfl⟩ := h; rfl

theorem mark_starts {c : CEnv} {t : String} {xs : List Ir} (h : MarkC c t xs) : startsElse xs = false := by
  unfold MarkC at h
  split at h
  · obtain ⟨l, rfl⟩ := h; rfl
  · subst h; rfl

theorem rel_mark (c : CEnv) (env : Env) (t : String) (xs : List Ir) (h : MarkC c t xs) :
    Rel BodyR (semList P O call env xs) (if c.mode = "xml".toList then say t.toList else M.pure () : MD W Unit) := by
  unfold MarkC at h
  split at h
  · next he =>
    obtain ⟨l, rfl⟩ := h
    rw [if_pos he, semList_one]
    exact rel_say _
  · next he => subst h; rw [if_neg he]; exact rel_nil O env

theorem scriptPieces_starts {e : Bool} {as : List (Str ⊕ Str)} {xs : List Ir}
    (h : List.Forall₂ (ScriptNode e) as xs) : startsElse xs = false := by
  cases h with
  | nil => rfl
  | @cons a x as xs h _ =>
    cases a <;> obtain ⟨l, rfl⟩ := h <;> rfl

theorem script_starts {py : PyCompile} {ks : List DNode} {xs : List Ir} (h : ScriptC py ks xs) :
    startsElse xs = false := by
  induction h with
  | nil => rfl
  | cdata _ ih => exact ih
  | text h _ ih => exact append_false (scriptPieces_starts h) ih

include hcall in
theorem rel_scriptText (c : CEnv) (env : Env) (e : Bool) (d : Str) (xs : List Ir)
    (h : List.Forall₂ (ScriptNode e) (cut c.py d) xs) :
    Rel BodyR (semList P O call env xs) (scriptText O call' c env e d) := by
  unfold scriptText
  revert h
  generalize cut c.py d = as
  intro h
  induction h with
  | nil => exact rel_nil O env
  | @cons a x as xs h hs ih =>
    rw [M.each]
    refine rel_cons O (scriptPieces_starts hs) ?_ ih
    cases a with
    | inl t => obtain ⟨l, rfl⟩ := h; exact rel_say _
    | inr t =>
      obtain ⟨l, rfl⟩ := h
      simp only [sem, Bool.false_eq_true, if_false]
      exact rel_escaped O hcall env _

include hcall in
theorem rel_script (c : CEnv) (env : Env) (ks : List DNode) (xs a b : List Ir)
    (h : ScriptC c.py ks xs) (ha : MarkC c "/*<![CDATA[*/" a) (hb : MarkC c "/*]]>*/" b) :
    Rel BodyR (semList P O call env (a ++ xs ++ b)) (scriptContent O call' c env ks) := by
  unfold scriptContent
  rw [List.append_assoc]
  refine rel_append O (append_false (script_starts h) (mark_starts hb)) (rel_mark O c env _ _ ha) ?_
  refine rel_append O (mark_starts hb) ?_ (rel_mark O c env _ _ hb)
  clear ha hb
  induction h with
  | nil => exact rel_nil O env
  | cdata _ ih =>
    rw [M.each, M.pure_bind]
    exact ih
  | text h hs ih =>
    rw [M.each]
    exact rel_append O (script_starts hs) (rel_scriptText O hcall c env _ _ _ h) ih

/-! ## Nodes -/

theorem semList_cases (env : Env) {b : List Ir} (h : b.all swOk = true) (h2 : b.all notText = true) :
    semList P O call env b = M.pure () := by
  induction b with
  | nil => rw [semList]
  | cons x b ih =>
    simp only [List.all_cons, Bool.and_eq_true] at h h2
    rw [semList, ih h.2 h2.2, M.bind_pure]
    cases x
    case caseN => rw [sem]
    case elseN => rw [sem]
    case text => simp [notText] at h2
    all_goals simp [swOk] at h

theorem filter_pieces {m : TextMode} {as : List (Str ⊕ Str)} {xs : List Ir} (h : List.Forall₂ (PieceNode m) as xs)
    (h2 : xs.all swOk = true) : xs.filter notText = [] := by
  induction h with
  | nil => rfl
  | @cons a x as xs h _ ih =>
    simp only [List.all_cons, Bool.and_eq_true] at h2
    cases a with
    | inl t =>
      obtain ⟨l, rfl⟩ := h
      unfold textNode at h2 ⊢
      split
      · next hb => rw [if_pos hb] at h2; simp [swOk] at h2
      · simpa [notText] using ih h2.2
    | inr e =>
      obtain ⟨l, rfl⟩ := h
      simp [swOk] at h2

include hP hcall

set_option linter.unusedSectionVars false

set_option maxHeartbeats 1000000 in
mutual
theorem node_rel {c : CEnv} {p : Place} {tag : Str} {x : DNode} {ys : List Ir} {fs : Dict (List Ir)}
    (h : NodeC c p tag x ys fs) {prev : Str} (hp : (placed c.opts .no prev x).isSome = true)
    (ht : tagOf x ≠ "py:if".toList) (env : Env) (els : MD W Unit) :
    Rel BodyR (semList P O call env ys) (node Q O call' c env p els tag x) := by
  cases h with
  | text h => rw [node]; exact rel_text O hcall c env tag _ h
  | cdata h => rw [node]; exact rel_text O hcall c env tag _ h
  | hidden h => rw [node, if_pos h]; exact rel_nil O env
  | comment h =>
    rw [node, if_neg (by rw [h]; exact Bool.false_ne_true), semList_one]
    exact rel_say _
  | «module» h => rw [node, if_pos h]; exact rel_nil O env
  | pi h =>
    rw [node, if_neg (by rw [h]; exact Bool.false_ne_true), semList_one, sem]
    unfold python
    split
    · exact Rel.pure _
    · exact (Rel.ask _ _).bind fun _ => Rel.setVars _ _
  | auto ha hk hb =>
    rw [node, if_pos ha]
    cases hb with
    | child hc => rw [if_pos hc]; exact rel_nil O env
    | here hc =>
      rw [if_neg (by rw [hc]; exact Bool.false_ne_true), semList_one, sem]
      exact rel_escaped O hcall env _
  | content ha hd h1 h2 h3 =>
    rw [node, if_neg (by rw [ha]; exact Bool.false_ne_true), hd]
    simp only [h3, Bool.not_false, if_true]
    refine rel_start O hcall c env _ _ h1 h2 rfl ?_
    refine rel_cons O rfl (rel_tag O env _ _ _) ?_
    refine rel_cons O rfl ?_ ?_
    · rw [sem]; exact rel_escaped O hcall env _
    · rw [semList_one]; exact rel_tag O env _ _ _
  | empty ha hd h1 h2 h3 =>
    rw [node, if_neg (by rw [ha]; exact Bool.false_ne_true), hd]
    simp only [h3, Bool.not_true, Bool.false_eq_true, if_false, List.isEmpty_nil, if_true]
    refine rel_start O hcall c env _ _ h1 h2 rfl ?_
    rw [semList_one]
    exact rel_tag O env _ _ _
  | script ha hd h1 h2 h3 h4 h5 h6 h7 h8 h9 =>
    rw [node, if_neg (by rw [ha]; exact Bool.false_ne_true), hd]
    simp only [h3, h4, h5, Bool.not_true, Bool.false_eq_true, if_false, if_true]
    refine rel_start O hcall c env _ _ h1 h2 rfl ?_
    rw [List.cons_append]
    refine rel_cons O (append_false (append_false (append_false (mark_starts h7) (script_starts h6))
      (mark_starts h8)) (end_starts h9)) (rel_tag O env _ _ _) ?_
    exact rel_append O (end_starts h9) (rel_script O hcall c env _ _ _ _ h6 h7 h8) (rel_end O c env _ _ _ h9)
  | @elem _ _ t as _ _ _ _ _ _ _ _ _ ha hd h1 h2 h3 h4 h5 h6 h7 =>
    have hc : ownContent c.opts t as = false := by
      unfold ownContent
      rw [h5, ← attr_plain c.opts _ _ _ (by decide +kernel), h3]
      rfl
    have hk := placed_none hp ha hd hc
    have hs : startsElse _ = false := kids_not h6 hk no_tag
    rw [node, if_neg (by rw [ha]; exact Bool.false_ne_true), hd]
    simp only [h3, h4, h5, Bool.not_true, Bool.false_eq_true, if_false]
    refine rel_start O hcall c env _ _ h1 h2 rfl ?_
    rw [List.cons_append]
    refine rel_cons O (append_false hs (end_starts h7)) (rel_tag O env _ _ _) ?_
    exact rel_append O (end_starts h7) (kids_rel h6 hk env) (rel_end O c env _ _ _ h7)
  | replace ha hd =>
    rw [node, if_neg (by rw [ha]; exact Bool.false_ne_true), hd, semList_one, sem]
    exact rel_escaped O hcall env _
  | imp ha hd =>
    rw [node, if_neg (by rw [ha]; exact Bool.false_ne_true), hd, semList_one, sem]
    exact (Rel.importM hP _ _ _).bind fun _ => Rel.pure _
  | incl ha hd =>
    rw [node, if_neg (by rw [ha]; exact Bool.false_ne_true), hd, semList_one, sem]
    exact (Rel.importM hP _ _ _).bind fun _ => Rel.emitMain hcall _ _
  | ext ha hd hk =>
    have hk' := placed_dir hp ha hd (by simp) (by simp) (by simp) (by simp) (by simp)
    rw [node, if_neg (by rw [ha]; exact Bool.false_ne_true), hd]
    refine rel_cons O (kids_not hk hk' no_tag) ?_ (kids_rel hk hk' env)
    rw [sem]
    exact (Rel.extendM hP _ _).bind fun _ => Rel.emitMain hcall _ _
  | block ha hd hk hb =>
    rw [node, if_neg (by rw [ha]; exact Bool.false_ne_true), hd]
    cases hb with
    | child hc => simp only [hc, if_true]; exact rel_nil O env
    | here hc =>
      simp only [hc, Bool.false_eq_true, if_false]
      rw [semList_one, sem]
      exact rel_escaped O hcall env _
  | inner ha hd hi hk =>
    have hk' := placed_dir hp ha hd (by simp) (by simp) (by simp) (by simp) (by simp)
    rw [node, if_neg (by rw [ha]; exact Bool.false_ne_true), hd, semList_one, sem]
    simp only [hi, if_true]
    exact Rel.fdefM _ _ ⟨_, hk, hk'⟩
  | defn ha hd hi hk =>
    rw [node, if_neg (by rw [ha]; exact Bool.false_ne_true), hd]
    simp only [hi, Bool.false_eq_true, if_false]
    exact rel_nil O env
  | call ha hd hk =>
    have hk' := placed_dir hp ha hd (by simp) (by simp) (by simp) (by simp) (by simp)
    rw [node, if_neg (by rw [ha]; exact Bool.false_ne_true), hd, semList_one, sem]
    exact (Rel.fdefM _ _ ⟨_, hk, hk'⟩).bind fun _ => rel_unescaped O hcall env _
  | forD ha hd hk =>
    have hk' := placed_dir hp ha hd (by simp) (by simp) (by simp) (by simp) (by simp)
    rw [node, if_neg (by rw [ha]; exact Bool.false_ne_true), hd, semList_one, sem]
    simp only [M.bind_pure]
    exact (Rel.ask _ _).bind fun bs => Rel.each stable_true
      (fun vars => (Rel.setVars _ _).bind fun _ => kids_rel hk hk' env) bs
  | withD ha hd hk =>
    have hk' := placed_dir hp ha hd (by simp) (by simp) (by simp) (by simp) (by simp)
    rw [node, if_neg (by rw [ha]; exact Bool.false_ne_true), hd, semList_one, sem]
    refine (Rel.kjInst env).bind fun _ => RelAt.getBind fun s t hst _ => ?_
    rw [localVars_eq hst]
    refine Rel.bind (Rel.each stable_true (fun kv => (Rel.evalM O env _).bind fun v => Rel.setVars _ _) _)
      (fun _ => ?_) s t hst trivial
    exact (kids_rel hk hk' env).bind fun _ => Rel.setVars _ _
  | switchD ha hd hk hb =>
    have hk' := placed_switch hp ha hd
    rw [node, if_neg (by rw [ha]; exact Bool.false_ne_true), hd, semList_one, sem]
    refine (Rel.kjInst env).bind fun _ => (Rel.evalM O env _).bind fun v => ?_
    rw [switchBody_eq] at hb
    split at hb
    · next hall =>
      cases hb
      rw [semList_cases O env _ _, M.bind_pure]
      · have := choices_rel hk hk' hall env v [] (M.pure ()) (by rw [semCases] <;> first | exact Rel.pure _ | simp)
        rwa [List.append_nil] at this
      · rw [List.all_eq_true] at hall ⊢
        exact fun x hx => hall x (List.mem_of_mem_filter hx)
      · rw [List.all_eq_true]
        exact fun x hx => (List.mem_filter.1 hx).2
    · cases hb
  | caseD ha hd hk => exact (placed_case_no hp ha hd).elim
  | ifD ha hd hk =>
    exfalso
    have := Dict.get_eq_some_mem hd
    have all : ∀ e ∈ Spec.DocSem.directives, e.2 = .ifD → e.1 = "py:if".toList := by decide +kernel
    exact ht (all _ this rfl)
  | elseD ha hd hk =>
    rw [node, if_neg (by rw [ha]; exact Bool.false_ne_true), hd, semList_one, sem]
    exact Rel.pure _
  | nop ha hd hk =>
    rw [placed_nop ha hd] at hp
    rw [node, if_neg (by rw [ha]; exact Bool.false_ne_true), hd]
    exact kids_rel hk hp env
termination_by sizeOf x

theorem kids_rel {c : CEnv} {p : Place} {raw : Bool} {tag : Str} {xs : List DNode} {ys : List Ir}
    {fs : Dict (List Ir)} (h : KidsC c p raw tag xs ys fs) {prev : Str}
    (hp : (placedAll c.opts .no prev xs).isSome = true) (env : Env) :
    Rel BodyR (semList P O call env ys) (nodes Q O call' c env p raw tag xs) := by
  cases h with
  | nil => rw [nodes]; exact rel_nil O env
  | raw h =>
    obtain ⟨sw', hp1, hp2⟩ := placedAll_cons hp
    have := placed_no hp1
    subst this
    rw [nodes]
    exact rel_cons O (kids_not h hp2 no_tag) (rel_say _) (kids_rel h hp2 env)
  | @cons _ _ _ k ks ys zs fs gs h0 h1 h2 =>
    obtain ⟨sw', hp1, hp2⟩ := placedAll_cons hp
    have hp1' := isSome_of_eq hp1
    have := placed_no hp1
    subst this
    have hn : nodes Q O call' c env p raw tag (k :: ks) =
        M.bind (node Q O call' c env p (otherwise Q O call' c env (after c.opts p k) ks) tag k) fun _ =>
        nodes Q O call' c env (after c.opts p k) raw tag ks := by
      cases raw with
      | false => rw [nodes]; simp
      | true =>
        cases k with
        | cdata d l => exact absurd rfl (h0 rfl d l)
        | _ => rw [nodes]; simp
    rw [hn]
    by_cases ht : tagOf k = "py:if".toList
    · obtain ⟨t, as, l, kk, l', b, rfl, ha, hd, hk, rfl⟩ := if_inv h1 hp1' ht
      have hk' := placed_dir hp1' ha hd (by simp) (by simp) (by simp) (by simp) (by simp)
      rw [List.cons_append, List.nil_append, semList, sem, node,
        if_neg (by rw [ha]; exact Bool.false_ne_true), hd]
      refine Rel.bind ((rel_test O env _).bind fun b => ?_) fun _ => kids_rel h2 hp2 env
      cases b
      · exact else_rel h2 hp2 env
      · exact kids_rel hk hk' env
    · exact rel_append O (kids_not h2 hp2 ht) (node_rel h1 hp1' ht env _) (kids_rel h2 hp2 env)
termination_by sizeOf xs

theorem else_rel {c : CEnv} {p : Place} {raw : Bool} {tag : Str} {xs : List DNode} {ys : List Ir}
    {fs : Dict (List Ir)} (h : KidsC c p raw tag xs ys fs) {prev : Str}
    (hp : (placedAll c.opts .no prev xs).isSome = true) (env : Env) :
    Rel BodyR (semElse P O call env ys) (otherwise Q O call' c env p xs) := by
  cases hs : startsElse ys with
  | true =>
    obtain ⟨_, t, as, l, ks, l', b, xs', gs, zs, rfl, ha, hd, hk, rfl⟩ := kids_starts h hp hs
    obtain ⟨sw', hp1, hp2⟩ := placedAll_cons hp
    have hk' := placed_dir (isSome_of_eq hp1) ha hd (by simp) (by simp) (by simp) (by simp) (by simp)
    rw [semElse, otherwise, if_pos hd]
    exact kids_rel hk hk' env
  | false =>
    rw [semElse_of_not P O call env hs]
    have : otherwise Q O call' c env p xs = M.pure () := by
      cases h with
      | nil => rw [otherwise]; simp
      | raw h => rw [otherwise]; simp
      | @cons _ _ _ k ks ys zs fs gs h0 h1 h2 =>
        cases k with
        | elem t as l kk =>
          rw [otherwise, if_neg]
          intro hd
          obtain ⟨sw', hp1, hp2⟩ := placedAll_cons hp
          cases h1 with
          | elseD => simp [startsElse] at hs
          | auto ha _ _ =>
            rw [(not_auto (isSome_of_eq hp1) ha).1] at hd
            cases hd
          | _ => simp_all
        | _ => rw [otherwise]; simp
    rw [this]
    exact Rel.pure _
termination_by sizeOf xs

theorem choice_rel {c : CEnv} {p : Place} {tag : Str} {x : DNode} {ys : List Ir} {fs : Dict (List Ir)}
    (h : NodeC c p tag x ys fs) {sw : Sw} {prev : Str} (hp : (placed c.opts sw prev x).isSome = true)
    (hall : ys.all swOk = true) (env : Env) (v : Val) (zs : List Ir) (rest : MD W Unit)
    (hz : Rel BodyR (semCases P O call env v zs) rest) :
    Rel BodyR (semCases P O call env v (ys.filter notText ++ zs)) (choice Q O call' c env p v rest x) := by
  cases h with
  | text h => rw [filter_pieces h hall, choice]; exact hz; simp
  | cdata h => rw [filter_pieces h hall, choice]; exact hz; simp
  | hidden h => rw [choice]; exact hz; simp
  | comment h => rw [choice]; exact hz; simp
  | «module» h => rw [choice]; exact hz; simp
  | pi h => simp [swOk] at hall
  | auto ha hk hb =>
    cases hb with
    | child hc => rw [choice, (not_auto hp ha).1]; exact hz
    | here hc => simp [swOk] at hall
  | block ha hd hk hb =>
    cases hb with
    | child hc => rw [choice, hd]; exact hz
    | here hc => simp [swOk] at hall
  | content ha hd h1 h2 h3 =>
    simp only [List.cons_append, List.all_cons, Bool.and_eq_true, swOk, strip_lt] at hall
    cases hall.1
  | empty ha hd h1 h2 h3 =>
    simp only [List.cons_append, List.all_cons, Bool.and_eq_true, swOk, strip_lt] at hall
    cases hall.1
  | script ha hd h1 h2 h3 h4 h5 h6 h7 h8 h9 =>
    simp only [List.cons_append, List.all_cons, Bool.and_eq_true, swOk, strip_lt] at hall
    cases hall.1
  | elem ha hd h1 h2 h3 h4 h5 h6 h7 =>
    simp only [List.cons_append, List.all_cons, Bool.and_eq_true, swOk, strip_lt] at hall
    cases hall.1
  | defn ha hd hi hk => rw [choice, hd]; exact hz
  | caseD ha hd hk =>
    have hk' := placed_dir hp ha hd (by simp) (by simp) (by simp) (by simp) (by simp)
    rw [choice, hd]
    show Rel BodyR (semCases P O call env v (.caseN _ _ _ :: zs)) _
    rw [semCases]
    refine (Rel.evalM O env _).bind fun u => ?_
    split
    · exact kids_rel hk hk' env
    · exact hz
  | elseD ha hd hk =>
    have hk' := placed_dir hp ha hd (by simp) (by simp) (by simp) (by simp) (by simp)
    rw [choice, hd]
    show Rel BodyR (semCases P O call env v (.elseN _ _ :: zs)) _
    rw [semCases]
    exact kids_rel hk hk' env
  | nop ha hd hk =>
    rw [placed_nop ha hd] at hp
    rw [choice, hd]
    exact choices_rel hk hp hall env v zs rest hz
  | _ => simp [swOk] at hall
termination_by sizeOf x

theorem choices_rel {c : CEnv} {p : Place} {tag : Str} {xs : List DNode} {ys : List Ir}
    {fs : Dict (List Ir)} (h : KidsC c p false tag xs ys fs) {sw : Sw} {prev : Str}
    (hp : (placedAll c.opts sw prev xs).isSome = true)
    (hall : ys.all swOk = true) (env : Env) (v : Val) (zs : List Ir) (rest : MD W Unit)
    (hz : Rel BodyR (semCases P O call env v zs) rest) :
    Rel BodyR (semCases P O call env v (ys.filter notText ++ zs)) (choices Q O call' c env p v rest xs) := by
  cases h with
  | nil => rw [choices]; exact hz
  | @cons _ _ _ k ks ys ys' fs gs h0 h1 h2 =>
    obtain ⟨sw', hp1, hp2⟩ := placedAll_cons hp
    rw [List.all_append, Bool.and_eq_true] at hall
    rw [choices, List.filter_append, List.append_assoc]
    exact choice_rel h1 (isSome_of_eq hp1) hall.1 env v _ _
      (choices_rel h2 hp2 hall.2 env v zs rest hz)
termination_by sizeOf xs
end

end

/-! ## Empty bodies -/

mutual
theorem node_silent {c : CEnv} {p : Place} {tag : Str} {x : DNode} {ys : List Ir} {fs : Dict (List Ir)}
    (h : NodeC c p tag x ys fs) {sw : Sw} {prev : Str} (hp : (placed c.opts sw prev x).isSome = true) :
    ys.isEmpty = silent c p x := by
  cases h with
  | text h =>
    rw [silent]
    revert h
    generalize cut c.py _ = as
    intro h
    cases h <;> rfl
  | cdata h =>
    rw [silent]
    revert h
    generalize cut c.py _ = as
    intro h
    cases h <;> rfl
  | hidden h => rw [silent, h]; rfl
  | comment h => rw [silent, h]; rfl
  | «module» h => rw [silent, h]; rfl
  | pi h => rw [silent, h]; rfl
  | auto ha hk hb =>
    rw [silent, if_pos ha]
    cases hb with
    | child hc => rw [hc]; rfl
    | here hc => rw [hc]; rfl
  | block ha hd hk hb =>
    rw [silent, if_neg (by rw [ha]; exact Bool.false_ne_true), hd]
    cases hb with
    | child hc => simp only [hc]; rfl
    | here hc => simp only [hc]; rfl
  | inner ha hd hi hk =>
    rw [silent, if_neg (by rw [ha]; exact Bool.false_ne_true), hd]
    simp only [hi]
    rfl
  | defn ha hd hi hk =>
    rw [silent, if_neg (by rw [ha]; exact Bool.false_ne_true), hd]
    simp only [hi]
    rfl
  | nop ha hd hk =>
    rw [placed_nop ha hd] at hp
    rw [silent, if_neg (by rw [ha]; exact Bool.false_ne_true), hd]
    exact kids_silent hk hp
  | content ha hd => rw [silent, if_neg (by rw [ha]; exact Bool.false_ne_true), hd]; rfl
  | empty ha hd => rw [silent, if_neg (by rw [ha]; exact Bool.false_ne_true), hd]; rfl
  | script ha hd => rw [silent, if_neg (by rw [ha]; exact Bool.false_ne_true), hd]; rfl
  | elem ha hd => rw [silent, if_neg (by rw [ha]; exact Bool.false_ne_true), hd]; rfl
  | replace ha hd => rw [silent, if_neg (by rw [ha]; exact Bool.false_ne_true), hd]; rfl
  | imp ha hd => rw [silent, if_neg (by rw [ha]; exact Bool.false_ne_true), hd]; rfl
  | incl ha hd => rw [silent, if_neg (by rw [ha]; exact Bool.false_ne_true), hd]; rfl
  | ext ha hd => rw [silent, if_neg (by rw [ha]; exact Bool.false_ne_true), hd]; rfl
  | call ha hd => rw [silent, if_neg (by rw [ha]; exact Bool.false_ne_true), hd]; rfl
  | forD ha hd => rw [silent, if_neg (by rw [ha]; exact Bool.false_ne_true), hd]; rfl
  | withD ha hd => rw [silent, if_neg (by rw [ha]; exact Bool.false_ne_true), hd]; rfl
  | switchD ha hd => rw [silent, if_neg (by rw [ha]; exact Bool.false_ne_true), hd]; rfl
  | caseD ha hd => rw [silent, if_neg (by rw [ha]; exact Bool.false_ne_true), hd]; rfl
  | ifD ha hd => rw [silent, if_neg (by rw [ha]; exact Bool.false_ne_true), hd]; rfl
  | elseD ha hd => rw [silent, if_neg (by rw [ha]; exact Bool.false_ne_true), hd]; rfl

theorem kids_silent {c : CEnv} {p : Place} {tag : Str} {xs : List DNode} {ys : List Ir}
    {fs : Dict (List Ir)} (h : KidsC c p false tag xs ys fs) {sw : Sw} {prev : Str}
    (hp : (placedAll c.opts sw prev xs).isSome = true) : ys.isEmpty = silentAll c p xs := by
  cases h with
  | nil => rw [silentAll]; rfl
  | @cons _ _ _ k ks ys zs fs gs h0 h1 h2 =>
    obtain ⟨sw', hp1, hp2⟩ := placedAll_cons hp
    rw [silentAll, ← node_silent h1 (isSome_of_eq hp1), ← kids_silent h2 hp2]
    cases ys <;> rfl
end

/-! ## Bodies that show something -/

mutual
theorem node_shows {c : CEnv} {p : Place} {tag : Str} {x : DNode} {ys : List Ir} {fs : Dict (List Ir)}
    (h : NodeC c p tag x ys fs) {sw : Sw} {prev : Str} (hp : (placed c.opts sw prev x).isSome = true) :
    showsAny ys = speaks c p x := by
  cases h with
  | text h => rw [speaks, pieces_show h]
  | cdata h => rw [speaks, pieces_show h]
  | hidden h => rw [speaks, h]; rfl
  | comment h => rw [speaks, h]; rfl
  | «module» h => rw [speaks]; rfl
  | pi h => rw [speaks]; rfl
  | auto ha hk hb =>
    rw [speaks, if_pos ha]
    cases hb with
    | child hc => rw [hc]; rfl
    | here hc => rw [hc]; rfl
  | block ha hd hk hb =>
    rw [speaks, if_neg (by rw [ha]; exact Bool.false_ne_true), hd]
    cases hb with
    | child hc => simp only [hc]; rfl
    | here hc => simp only [hc]; rfl
  | inner ha hd hi hk => rw [speaks, if_neg (by rw [ha]; exact Bool.false_ne_true), hd]; rfl
  | defn ha hd hi hk => rw [speaks, if_neg (by rw [ha]; exact Bool.false_ne_true), hd]; rfl
  | nop ha hd hk =>
    rw [placed_nop ha hd] at hp
    rw [speaks, if_neg (by rw [ha]; exact Bool.false_ne_true), hd]
    exact kids_show hk hp
  | content ha hd => rw [speaks, if_neg (by rw [ha]; exact Bool.false_ne_true), hd]; rfl
  | empty ha hd => rw [speaks, if_neg (by rw [ha]; exact Bool.false_ne_true), hd]; rfl
  | script ha hd => rw [speaks, if_neg (by rw [ha]; exact Bool.false_ne_true), hd]; rfl
  | elem ha hd => rw [speaks, if_neg (by rw [ha]; exact Bool.false_ne_true), hd]; rfl
  | replace ha hd => rw [speaks, if_neg (by rw [ha]; exact Bool.false_ne_true), hd]; rfl
  | imp ha hd => rw [speaks, if_neg (by rw [ha]; exact Bool.false_ne_true), hd]; rfl
  | incl ha hd => rw [speaks, if_neg (by rw [ha]; exact Bool.false_ne_true), hd]; rfl
  | ext ha hd => rw [speaks, if_neg (by rw [ha]; exact Bool.false_ne_true), hd]; rfl
  | call ha hd => rw [speaks, if_neg (by rw [ha]; exact Bool.false_ne_true), hd]; rfl
  | forD ha hd hk =>
    have hk' := placed_dir hp ha hd (by simp) (by simp) (by simp) (by simp) (by simp)
    rw [speaks, if_neg (by rw [ha]; exact Bool.false_ne_true), hd, shows_one, shows]; exact kids_show hk hk'
  | withD ha hd hk =>
    have hk' := placed_dir hp ha hd (by simp) (by simp) (by simp) (by simp) (by simp)
    rw [speaks, if_neg (by rw [ha]; exact Bool.false_ne_true), hd, shows_one, shows]; exact kids_show hk hk'
  | switchD ha hd hk hb =>
    have hk' := placed_switch hp ha hd
    rw [speaks, if_neg (by rw [ha]; exact Bool.false_ne_true), hd, shows_one, shows]
    rw [switchBody_eq] at hb
    split at hb
    · next hall => cases hb; exact choices_show hk hk' hall
    · cases hb
  | caseD ha hd hk =>
    have hk' := placed_dir hp ha hd (by simp) (by simp) (by simp) (by simp) (by simp)
    rw [speaks, if_neg (by rw [ha]; exact Bool.false_ne_true), hd, shows_one, shows]; exact kids_show hk hk'
  | ifD ha hd hk =>
    have hk' := placed_dir hp ha hd (by simp) (by simp) (by simp) (by simp) (by simp)
    rw [speaks, if_neg (by rw [ha]; exact Bool.false_ne_true), hd, shows_one, shows]; exact kids_show hk hk'
  | elseD ha hd hk =>
    have hk' := placed_dir hp ha hd (by simp) (by simp) (by simp) (by simp) (by simp)
    rw [speaks, if_neg (by rw [ha]; exact Bool.false_ne_true), hd, shows_one, shows]; exact kids_show hk hk'
termination_by sizeOf x

theorem kids_show {c : CEnv} {p : Place} {tag : Str} {xs : List DNode} {ys : List Ir}
    {fs : Dict (List Ir)} (h : KidsC c p false tag xs ys fs) {sw : Sw} {prev : Str}
    (hp : (placedAll c.opts sw prev xs).isSome = true) : showsAny ys = speaksAny c p xs := by
  cases h with
  | nil => rw [speaksAny]; rfl
  | @cons _ _ _ k ks ys zs fs gs h0 h1 h2 =>
    obtain ⟨sw', hp1, hp2⟩ := placedAll_cons hp
    rw [speaksAny, shows_append, node_shows h1 (isSome_of_eq hp1), kids_show h2 hp2]
termination_by sizeOf xs

theorem choice_shows {c : CEnv} {p : Place} {tag : Str} {x : DNode} {ys : List Ir} {fs : Dict (List Ir)}
    (h : NodeC c p tag x ys fs) {sw : Sw} {prev : Str} (hp : (placed c.opts sw prev x).isSome = true)
    (hall : ys.all swOk = true) : showsAny (ys.filter notText) = speaksChoice c p x := by
  cases h with
  | text h => rw [filter_pieces h hall, speaksChoice]; rfl; simp
  | cdata h => rw [filter_pieces h hall, speaksChoice]; rfl; simp
  | hidden h => rw [speaksChoice]; rfl; simp
  | comment h => rw [speaksChoice]; rfl; simp
  | «module» h => rw [speaksChoice]; rfl; simp
  | pi h => simp [swOk] at hall
  | auto ha hk hb =>
    cases hb with
    | child hc => rw [speaksChoice, (not_auto hp ha).1]; rfl
    | here hc => simp [swOk] at hall
  | block ha hd hk hb =>
    cases hb with
    | child hc => rw [speaksChoice, hd]; rfl
    | here hc => simp [swOk] at hall
  | content ha hd h1 h2 h3 =>
    simp only [List.cons_append, List.all_cons, Bool.and_eq_true, swOk, strip_lt] at hall
    cases hall.1
  | empty ha hd h1 h2 h3 =>
    simp only [List.cons_append, List.all_cons, Bool.and_eq_true, swOk, strip_lt] at hall
    cases hall.1
  | script ha hd h1 h2 h3 h4 h5 h6 h7 h8 h9 =>
    simp only [List.cons_append, List.all_cons, Bool.and_eq_true, swOk, strip_lt] at hall
    cases hall.1
  | elem ha hd h1 h2 h3 h4 h5 h6 h7 =>
    simp only [List.cons_append, List.all_cons, Bool.and_eq_true, swOk, strip_lt] at hall
    cases hall.1
  | defn ha hd hi hk => rw [speaksChoice, hd]; rfl
  | caseD ha hd hk =>
    have hk' := placed_dir hp ha hd (by simp) (by simp) (by simp) (by simp) (by simp)
    rw [speaksChoice, hd]
    show showsAny [.caseN _ _ _] = _
    rw [shows_one, shows]
    exact kids_show hk hk'
  | elseD ha hd hk =>
    have hk' := placed_dir hp ha hd (by simp) (by simp) (by simp) (by simp) (by simp)
    rw [speaksChoice, hd]
    show showsAny [.elseN _ _] = _
    rw [shows_one, shows]
    exact kids_show hk hk'
  | nop ha hd hk =>
    rw [placed_nop ha hd] at hp
    rw [speaksChoice, hd]
    exact choices_show hk hp hall
  | _ => simp [swOk] at hall
termination_by sizeOf x

theorem choices_show {c : CEnv} {p : Place} {tag : Str} {xs : List DNode} {ys : List Ir}
    {fs : Dict (List Ir)} (h : KidsC c p false tag xs ys fs) {sw : Sw} {prev : Str}
    (hp : (placedAll c.opts sw prev xs).isSome = true) (hall : ys.all swOk = true) :
    showsAny (ys.filter notText) = speaksChoices c p xs := by
  cases h with
  | nil => rw [speaksChoices]; rfl
  | @cons _ _ _ k ks ys ys' fs gs h0 h1 h2 =>
    obtain ⟨sw', hp1, hp2⟩ := placedAll_cons hp
    rw [List.all_append, Bool.and_eq_true] at hall
    rw [speaksChoices, List.filter_append, shows_append, choice_shows h1 (isSome_of_eq hp1) hall.1,
      choices_show h2 hp2 hall.2]
termination_by sizeOf xs
end

/-! ## Functions -/

/-- The same functions. -/
def FunsR : List (Str × List Ir) → List (Str × Part) → Prop :=
  List.Forall₂ fun a b => a.1 = b.1 ∧ BodyR a.2 b.2

theorem FunsR.append {a b : List (Str × List Ir)} {x y : List (Str × Part)} (h : FunsR a x) (h2 : FunsR b y) :
    FunsR (a ++ b) (x ++ y) := List.rel_append h h2

theorem block_funs {c : CEnv} {p : Place} {t name : Str} {ks : List DNode} {b xs : List Ir} {fs gs : Dict (List Ir)}
    (hk : KidsC c p false t ks b fs) (hp : (placedAll c.opts .no [] ks).isSome = true)
    (h : BlockC c p name ks b xs gs) : FunsR gs [(blockDecl name, .block c p t name ks)] := by
  cases h with
  | child hc => exact .cons ⟨rfl, b, fs, _, hk, hp, by rw [if_pos hc]; rfl⟩ .nil
  | here hc =>
    exact .cons ⟨rfl, b, fs, 0, hk, hp, by rw [hc, if_neg (c := false = true) Bool.false_ne_true]; rfl⟩ .nil

mutual
theorem node_funs {c : CEnv} {p : Place} {tag : Str} {x : DNode} {ys : List Ir} {fs : Dict (List Ir)}
    (h : NodeC c p tag x ys fs) {sw : Sw} {prev : Str} (hp : (placed c.opts sw prev x).isSome = true) :
    FunsR fs (defs c p x) := by
  cases h with
  | text h => rw [defs]; exact .nil; simp
  | cdata h => rw [defs]; exact .nil; simp
  | hidden h => rw [defs]; exact .nil; simp
  | comment h => rw [defs]; exact .nil; simp
  | «module» h => rw [defs]; exact .nil; simp
  | pi h => rw [defs]; exact .nil; simp
  | auto ha hk hb =>
    have hk' := (not_auto hp ha).2
    rw [defs, if_pos ha]
    exact (kids_funs hk hk').append (block_funs hk hk' hb)
  | @content _ _ t as _ _ _ _ _ _ _ _ ha hd _ _ h3 =>
    rw [defs, if_neg (by rw [ha]; exact Bool.false_ne_true), hd]
    have hc : ownContent c.opts t as = true := by
      unfold ownContent
      rw [← attr_plain c.opts t as _ (by decide +kernel), h3]
      rfl
    simp only [hc, if_true]
    exact .nil
  | empty ha hd =>
    rw [defs, if_neg (by rw [ha]; exact Bool.false_ne_true), hd]
    simp only [defsAll, ite_self]
    exact .nil
  | @script _ _ t as _ _ _ _ _ _ _ _ _ _ ha hd _ _ _ _ h5 =>
    rw [defs, if_neg (by rw [ha]; exact Bool.false_ne_true), hd]
    have hc : ownContent c.opts t as = true := by
      unfold ownContent
      rw [h5, Bool.or_true]
    simp only [hc, if_true]
    exact .nil
  | @elem _ _ t as _ _ _ _ _ _ _ _ _ ha hd _ _ h3 _ h5 hk =>
    rw [defs, if_neg (by rw [ha]; exact Bool.false_ne_true), hd]
    have hc : ownContent c.opts t as = false := by
      unfold ownContent
      rw [h5, ← attr_plain c.opts _ _ _ (by decide +kernel), h3]
      rfl
    simp only [hc, Bool.false_eq_true, if_false]
    exact kids_funs hk (placed_none hp ha hd hc)
  | replace ha hd => rw [defs, if_neg (by rw [ha]; exact Bool.false_ne_true), hd]; exact .nil
  | imp ha hd => rw [defs, if_neg (by rw [ha]; exact Bool.false_ne_true), hd]; exact .nil
  | incl ha hd => rw [defs, if_neg (by rw [ha]; exact Bool.false_ne_true), hd]; exact .nil
  | ext ha hd hk =>
    rw [defs, if_neg (by rw [ha]; exact Bool.false_ne_true), hd]
    exact kids_funs hk (placed_dir hp ha hd (by simp) (by simp) (by simp) (by simp) (by simp))
  | block ha hd hk hb =>
    have hk' := placed_dir hp ha hd (by simp) (by simp) (by simp) (by simp) (by simp)
    rw [defs, if_neg (by rw [ha]; exact Bool.false_ne_true), hd]
    exact (kids_funs hk hk').append (block_funs hk hk' hb)
  | inner ha hd hi hk =>
    have hk' := placed_dir hp ha hd (by simp) (by simp) (by simp) (by simp) (by simp)
    rw [defs, if_neg (by rw [ha]; exact Bool.false_ne_true), hd]
    simp only [hi, if_true, List.append_nil]
    exact kids_funs hk hk'
  | defn ha hd hi hk =>
    have hk' := placed_dir hp ha hd (by simp) (by simp) (by simp) (by simp) (by simp)
    rw [defs, if_neg (by rw [ha]; exact Bool.false_ne_true), hd]
    simp only [hi, Bool.false_eq_true, if_false]
    exact (kids_funs hk hk').append (.cons ⟨rfl, _, hk, hk'⟩ .nil)
  | call ha hd hk =>
    rw [defs, if_neg (by rw [ha]; exact Bool.false_ne_true), hd]
    exact kids_funs hk (placed_dir hp ha hd (by simp) (by simp) (by simp) (by simp) (by simp))
  | forD ha hd hk =>
    rw [defs, if_neg (by rw [ha]; exact Bool.false_ne_true), hd]
    exact kids_funs hk (placed_dir hp ha hd (by simp) (by simp) (by simp) (by simp) (by simp))
  | withD ha hd hk =>
    rw [defs, if_neg (by rw [ha]; exact Bool.false_ne_true), hd]
    exact kids_funs hk (placed_dir hp ha hd (by simp) (by simp) (by simp) (by simp) (by simp))
  | switchD ha hd hk =>
    rw [defs, if_neg (by rw [ha]; exact Bool.false_ne_true), hd]
    exact kids_funs hk (placed_switch hp ha hd)
  | caseD ha hd hk =>
    rw [defs, if_neg (by rw [ha]; exact Bool.false_ne_true), hd]
    exact kids_funs hk (placed_dir hp ha hd (by simp) (by simp) (by simp) (by simp) (by simp))
  | ifD ha hd hk =>
    rw [defs, if_neg (by rw [ha]; exact Bool.false_ne_true), hd]
    exact kids_funs hk (placed_dir hp ha hd (by simp) (by simp) (by simp) (by simp) (by simp))
  | elseD ha hd hk =>
    rw [defs, if_neg (by rw [ha]; exact Bool.false_ne_true), hd]
    exact kids_funs hk (placed_dir hp ha hd (by simp) (by simp) (by simp) (by simp) (by simp))
  | nop ha hd hk =>
    rw [placed_nop ha hd] at hp
    rw [defs, if_neg (by rw [ha]; exact Bool.false_ne_true), hd]
    exact kids_funs hk hp

theorem kids_funs {c : CEnv} {p : Place} {raw : Bool} {tag : Str} {xs : List DNode} {ys : List Ir}
    {fs : Dict (List Ir)} (h : KidsC c p raw tag xs ys fs) {sw : Sw} {prev : Str}
    (hp : (placedAll c.opts sw prev xs).isSome = true) : FunsR fs (defsAll c p xs) := by
  cases h with
  | nil => rw [defsAll]; exact .nil
  | raw h =>
    obtain ⟨sw', hp1, hp2⟩ := placedAll_cons hp
    rw [defsAll, defs, List.nil_append, after]
    · exact kids_funs h hp2
    · simp
    · simp
  | cons h0 h1 h2 =>
    obtain ⟨sw', hp1, hp2⟩ := placedAll_cons hp
    rw [defsAll]
    exact (node_funs h1 (isSome_of_eq hp1)).append (kids_funs h2 hp2)
end

/-! ## Cases are where they belong -/

/-- Not a `py:case`, and right inside. -/
def okNode : Ir → Bool
  | .caseN _ _ _ => false
  | x => casesOk x

theorem casesIn_of_ok {xs : List Ir} (h : ∀ x ∈ xs, okNode x = true) : casesIn false xs = true := by
  induction xs with
  | nil => rfl
  | cons x xs ih =>
    have h1 := h x (List.mem_cons_self ..)
    have h2 := ih fun y hy => h y (List.mem_cons_of_mem _ hy)
    cases x
    case caseN => simp [okNode] at h1
    case python ls l => cases ls <;> simp [casesIn, casesOk, h2]
    all_goals
      simp only [okNode] at h1
      rw [casesIn, h1, h2] <;> simp

theorem piece_ok {m : TextMode} {a : Str ⊕ Str} {x : Ir} (h : PieceNode m a x) : okNode x = true := by
  cases a with
  | inl t =>
    obtain ⟨l, rfl⟩ := h
    unfold textNode
    split <;> rfl
  | inr e =>
    obtain ⟨l, rfl⟩ := h
    rfl

theorem forall₂_right {α β : Type} {R : α → β → Prop} {Q : β → Prop} {as : List α} {bs : List β}
    (h : List.Forall₂ R as bs) (hq : ∀ a b, R a b → Q b) : ∀ b ∈ bs, Q b := by
  induction h with
  | nil => intro b hb; cases hb
  | cons h _ ih =>
    intro b hb
    cases hb with
    | head => exact hq _ _ h
    | tail _ hb => exact ih b hb

theorem pieces_ok {m : TextMode} {as : List (Str ⊕ Str)} {xs : List Ir} (h : List.Forall₂ (PieceNode m) as xs) :
    ∀ x ∈ xs, okNode x = true := forall₂_right h fun _ _ => piece_ok

theorem attrs_ok {c : CEnv} {g : Option Str} {kvs : List (Str × Str)} {xs : List Ir} (h : AttrsC c g kvs xs) :
    ∀ x ∈ xs, okNode x = true :=
  forall₂_right h fun _ _ h => by
    obtain ⟨vs, l, rfl, hv⟩ := h
    exact casesIn_of_ok (pieces_ok hv)

theorem dyn_ok {c : CEnv} {g : Option Str} {as : Dict Str} {xs : List Ir} (h : DynC c g as xs) :
    ∀ x ∈ xs, okNode x = true := by
  unfold DynC at h
  split at h
  · subst h; simp
  · obtain ⟨l, rfl⟩ := h
    intro x hx
    rw [List.mem_singleton] at hx
    subst hx
    rfl

theorem mark_ok {c : CEnv} {t : String} {xs : List Ir} (h : MarkC c t xs) : ∀ x ∈ xs, okNode x = true := by
  unfold MarkC at h
  split at h
  · obtain ⟨l, rfl⟩ := h
    intro x hx
    rw [List.mem_singleton] at hx
    subst hx
    rfl
  · subst h; simp

theorem end_ok {c : CEnv} {t : Str} {g : Option Str} {xs : List Ir} (h : EndC c t g xs) :
    ∀ x ∈ xs, okNode x = true := by
  unfold EndC at h
  split at h
  · subst h; simp
  · obtain ⟨l, rfl⟩ := h
    intro x hx
    rw [List.mem_singleton] at hx
    subst hx
    rfl

theorem script_ok {py : PyCompile} {ks : List DNode} {xs : List Ir} (h : ScriptC py ks xs) :
    ∀ x ∈ xs, okNode x = true := by
  induction h with
  | nil => simp
  | cdata _ ih => exact ih
  | text h _ ih =>
    intro x hx
    rcases List.mem_append.1 hx with hx | hx
    · refine forall₂_right (Q := fun x => okNode x = true) h (fun a b h => ?_) x hx
      cases a <;> obtain ⟨l, rfl⟩ := h <;> rfl
    · exact ih x hx

theorem ok_append {a b : List Ir} (h : ∀ x ∈ a, okNode x = true) (h2 : ∀ x ∈ b, okNode x = true) :
    ∀ x ∈ a ++ b, okNode x = true := by
  intro x hx
  rcases List.mem_append.1 hx with hx | hx
  · exact h x hx
  · exact h2 x hx

theorem ok_cons {a : Ir} {b : List Ir} (h : okNode a = true) (h2 : ∀ x ∈ b, okNode x = true) :
    ∀ x ∈ a :: b, okNode x = true := by
  intro x hx
  cases hx with
  | head => exact h
  | tail _ hx => exact h2 x hx

theorem ok_nil : ∀ x ∈ ([] : List Ir), okNode x = true := by simp

mutual
theorem node_ok {c : CEnv} {p : Place} {tag : Str} {x : DNode} {ys : List Ir} {fs : Dict (List Ir)}
    (h : NodeC c p tag x ys fs) {prev : Str} (hp : (placed c.opts .no prev x).isSome = true) :
    ∀ y ∈ ys, okNode y = true := by
  cases h with
  | text h => exact pieces_ok h
  | cdata h => exact pieces_ok h
  | hidden h => exact ok_nil
  | comment h => exact ok_cons rfl ok_nil
  | «module» h => exact ok_nil
  | pi h => exact ok_cons rfl ok_nil
  | auto ha hk hb =>
    cases hb with
    | child => exact ok_nil
    | here => exact ok_cons rfl ok_nil
  | block ha hd hk hb =>
    cases hb with
    | child => exact ok_nil
    | here => exact ok_cons rfl ok_nil
  | content ha hd h1 h2 h3 =>
    exact ok_append (ok_cons rfl (ok_append (attrs_ok h1) (dyn_ok h2)))
      (ok_cons rfl (ok_cons rfl (ok_cons rfl ok_nil)))
  | empty ha hd h1 h2 h3 =>
    exact ok_append (ok_cons rfl (ok_append (attrs_ok h1) (dyn_ok h2))) (ok_cons rfl ok_nil)
  | script ha hd h1 h2 h3 h4 h5 h6 h7 h8 h9 =>
    exact ok_append (ok_cons rfl (ok_append (attrs_ok h1) (dyn_ok h2)))
      (ok_cons rfl (ok_append (ok_append (ok_append (mark_ok h7) (script_ok h6)) (mark_ok h8)) (end_ok h9)))
  | @elem _ _ t as _ _ _ _ _ _ _ _ _ ha hd h1 h2 h3 _ h5 hk he =>
    have hc : ownContent c.opts t as = false := by
      unfold ownContent
      rw [h5, ← attr_plain c.opts _ _ _ (by decide +kernel), h3]
      rfl
    exact ok_append (ok_cons rfl (ok_append (attrs_ok h1) (dyn_ok h2)))
      (ok_cons rfl (ok_append (kids_ok hk (placed_none hp ha hd hc)) (end_ok he)))
  | replace ha hd => exact ok_cons rfl ok_nil
  | imp ha hd => exact ok_cons rfl ok_nil
  | incl ha hd => exact ok_cons rfl ok_nil
  | ext ha hd hk =>
    exact ok_cons rfl (kids_ok hk (placed_dir hp ha hd (by simp) (by simp) (by simp) (by simp) (by simp)))
  | inner ha hd hi hk =>
    exact ok_cons (casesIn_of_ok
      (kids_ok hk (placed_dir hp ha hd (by simp) (by simp) (by simp) (by simp) (by simp)))) ok_nil
  | defn ha hd hi hk => exact ok_nil
  | call ha hd hk =>
    exact ok_cons (casesIn_of_ok
      (kids_ok hk (placed_dir hp ha hd (by simp) (by simp) (by simp) (by simp) (by simp)))) ok_nil
  | forD ha hd hk =>
    exact ok_cons (casesIn_of_ok
      (kids_ok hk (placed_dir hp ha hd (by simp) (by simp) (by simp) (by simp) (by simp)))) ok_nil
  | withD ha hd hk =>
    exact ok_cons (casesIn_of_ok
      (kids_ok hk (placed_dir hp ha hd (by simp) (by simp) (by simp) (by simp) (by simp)))) ok_nil
  | switchD ha hd hk hb =>
    refine ok_cons ?_ ok_nil
    rw [switchBody_eq] at hb
    split at hb
    · next hall =>
      cases hb
      obtain ⟨sw', hs⟩ := Option.isSome_iff_exists.1 (placed_switch hp ha hd)
      have := choices_ok hk hs hall [] rfl
      rw [List.append_nil] at this
      exact this
    · cases hb
  | caseD ha hd hk => exact (placed_case_no hp ha hd).elim
  | ifD ha hd hk =>
    exact ok_cons (casesIn_of_ok
      (kids_ok hk (placed_dir hp ha hd (by simp) (by simp) (by simp) (by simp) (by simp)))) ok_nil
  | elseD ha hd hk =>
    exact ok_cons (casesIn_of_ok
      (kids_ok hk (placed_dir hp ha hd (by simp) (by simp) (by simp) (by simp) (by simp)))) ok_nil
  | nop ha hd hk =>
    rw [placed_nop ha hd] at hp
    exact kids_ok hk hp

theorem kids_ok {c : CEnv} {p : Place} {raw : Bool} {tag : Str} {xs : List DNode} {ys : List Ir}
    {fs : Dict (List Ir)} (h : KidsC c p raw tag xs ys fs) {prev : Str}
    (hp : (placedAll c.opts .no prev xs).isSome = true) : ∀ y ∈ ys, okNode y = true := by
  cases h with
  | nil => exact ok_nil
  | raw h =>
    obtain ⟨sw', hp1, hp2⟩ := placedAll_cons hp
    have := placed_no hp1
    subst this
    exact ok_cons rfl (kids_ok h hp2)
  | cons h0 h1 h2 =>
    obtain ⟨sw', hp1, hp2⟩ := placedAll_cons hp
    have := placed_no hp1
    subst this
    exact ok_append (node_ok h1 (isSome_of_eq hp1)) (kids_ok h2 hp2)

theorem choice_ok {c : CEnv} {p : Place} {tag : Str} {x : DNode} {ys : List Ir} {fs : Dict (List Ir)}
    (h : NodeC c p tag x ys fs) {sw sw' : Sw} {prev : Str} (hp : placed c.opts sw prev x = some sw')
    (hall : ys.all swOk = true) (zs : List Ir) (hz : casesIn (decide (sw' = .cases)) zs = true) :
    casesIn (decide (sw = .cases)) (ys.filter notText ++ zs) = true := by
  cases h with
  | text h =>
    rw [placed] at hp
    · cases hp; rw [filter_pieces h hall]; exact hz
    · simp
  | cdata h =>
    rw [placed] at hp
    · cases hp; rw [filter_pieces h hall]; exact hz
    · simp
  | hidden h =>
    rw [placed] at hp
    · cases hp; exact hz
    · simp
  | comment h =>
    rw [placed] at hp
    · cases hp; exact hz
    · simp
  | «module» h =>
    rw [placed] at hp
    · cases hp; exact hz
    · simp
  | pi h => simp [swOk] at hall
  | auto ha hk hb =>
    cases hb with
    | child hc =>
      unfold placed at hp
      rw [if_pos ha] at hp
      split at hp
      · cases hp; exact hz
      · cases hp
    | here hc => simp [swOk] at hall
  | block ha hd hk hb =>
    cases hb with
    | child hc =>
      unfold placed at hp
      rw [if_neg (by rw [ha]; exact Bool.false_ne_true), hd] at hp
      simp only at hp
      split at hp
      · cases hp; exact hz
      · cases hp
    | here hc => simp [swOk] at hall
  | content ha hd h1 h2 h3 =>
    simp only [List.cons_append, List.all_cons, Bool.and_eq_true, swOk, strip_lt] at hall
    cases hall.1
  | empty ha hd h1 h2 h3 =>
    simp only [List.cons_append, List.all_cons, Bool.and_eq_true, swOk, strip_lt] at hall
    cases hall.1
  | script ha hd h1 h2 h3 h4 h5 h6 h7 h8 h9 =>
    simp only [List.cons_append, List.all_cons, Bool.and_eq_true, swOk, strip_lt] at hall
    cases hall.1
  | elem ha hd h1 h2 h3 h4 h5 h6 h7 =>
    simp only [List.cons_append, List.all_cons, Bool.and_eq_true, swOk, strip_lt] at hall
    cases hall.1
  | defn ha hd hi hk =>
    unfold placed at hp
    rw [if_neg (by rw [ha]; exact Bool.false_ne_true), hd] at hp
    simp only at hp
    split at hp
    · cases hp; exact hz
    · cases hp
  | caseD ha hd hk =>
    have hk' := kids_ok hk (placed_dir (isSome_of_eq hp) ha hd (by simp) (by simp) (by simp) (by simp) (by simp))
    unfold placed at hp
    rw [if_neg (by rw [ha]; exact Bool.false_ne_true), hd] at hp
    simp only at hp
    split at hp
    · next hs =>
      cases hp
      rw [Bool.and_eq_true] at hs
      show casesIn _ (.caseN _ _ _ :: zs) = true
      rw [casesIn, hs.1, casesOk, casesIn_of_ok hk']
      exact hz
    · cases hp
  | elseD ha hd hk =>
    have hk' := kids_ok hk (placed_dir (isSome_of_eq hp) ha hd (by simp) (by simp) (by simp) (by simp) (by simp))
    unfold placed at hp
    rw [if_neg (by rw [ha]; exact Bool.false_ne_true), hd] at hp
    simp only at hp
    show casesIn _ (.elseN _ _ :: zs) = true
    rw [casesIn, casesOk, casesIn_of_ok hk']
    · split at hp
      · cases sw with
        | no =>
          simp only at hp
          split at hp
          · cases hp; exact hz
          · cases hp
        | cases => cases hp; exact hz
        | done => cases hp
      · cases hp
    · simp
    · simp
  | nop ha hd hk =>
    rw [placed_nop ha hd] at hp
    exact choices_ok hk hp hall zs hz
  | _ => simp [swOk] at hall

theorem choices_ok {c : CEnv} {p : Place} {tag : Str} {xs : List DNode} {ys : List Ir}
    {fs : Dict (List Ir)} (h : KidsC c p false tag xs ys fs) {sw sw' : Sw} {prev : Str}
    (hp : placedAll c.opts sw prev xs = some sw')
    (hall : ys.all swOk = true) (zs : List Ir) (hz : casesIn (decide (sw' = .cases)) zs = true) :
    casesIn (decide (sw = .cases)) (ys.filter notText ++ zs) = true := by
  cases h with
  | nil => rw [placedAll] at hp; cases hp; exact hz
  | cons h0 h1 h2 =>
    rw [placedAll] at hp
    obtain ⟨sw1, hp1, hp2⟩ := Option.bind_eq_some_iff.1 hp
    rw [List.all_append, Bool.and_eq_true] at hall
    rw [List.filter_append, List.append_assoc]
    exact choice_ok h1 hp1 hall.1 _ (choices_ok h2 hp2 hall.2 zs hz)
end

theorem body_cases {b : List Ir} {x : Part} (h : BodyR b x) : casesIn false b = true := by
  refine casesIn_of_ok ?_
  cases x with
  | main c dt root =>
    obtain ⟨ys, fs, l, hn, hp, rfl⟩ := h
    refine ok_append ?_ (node_ok hn hp)
    split
    · exact ok_nil
    · exact ok_cons rfl ok_nil
  | body c p tag ks =>
    obtain ⟨fs, hk, hp⟩ := h
    exact kids_ok hk hp
  | block c p tag name ks =>
    obtain ⟨b0, fs, l, hk, hp, rfl⟩ := h
    refine ok_append ?_ ?_
    · split
      · exact ok_cons rfl ok_nil
      · exact ok_nil
    · split
      · exact ok_cons rfl ok_nil
      · exact kids_ok hk hp

/-! ## Guards -/

theorem guards_append (a b : List Ir) : textGuardsList (a ++ b) = textGuardsList a ++ textGuardsList b := by
  induction a with
  | nil => rfl
  | cons x a ih => rw [List.cons_append, textGuardsList, textGuardsList, ih, List.append_assoc]

theorem guards_nil {xs : List Ir} (h : ∀ x ∈ xs, textGuards x = []) : textGuardsList xs = [] := by
  induction xs with
  | nil => rfl
  | cons x xs ih =>
    rw [textGuardsList, h x (List.mem_cons_self ..), ih fun y hy => h y (List.mem_cons_of_mem _ hy)]
    rfl

theorem guards_filter (q : Ir → Bool) {xs : List Ir} {g : Str} (h : g ∈ textGuardsList (xs.filter q)) :
    g ∈ textGuardsList xs := by
  induction xs with
  | nil => exact h
  | cons x xs ih =>
    rw [textGuardsList, List.mem_append]
    rw [List.filter_cons] at h
    split at h
    · rw [textGuardsList, List.mem_append] at h
      exact h.imp id ih
    · exact Or.inr (ih h)

theorem piece_guards {m : TextMode} {a : Str ⊕ Str} {x : Ir} (h : PieceNode m a x) : textGuards x = [] := by
  cases a with
  | inl t =>
    obtain ⟨l, rfl⟩ := h
    unfold textNode
    split <;> rfl
  | inr e =>
    obtain ⟨l, rfl⟩ := h
    rfl

theorem pieces_guards {m : TextMode} {as : List (Str ⊕ Str)} {xs : List Ir} (h : List.Forall₂ (PieceNode m) as xs) :
    textGuardsList xs = [] := guards_nil (forall₂_right h fun _ _ => piece_guards)

theorem attrs_guards {c : CEnv} {g : Option Str} {kvs : List (Str × Str)} {xs : List Ir} (h : AttrsC c g kvs xs) :
    textGuardsList xs = [] :=
  guards_nil (forall₂_right h fun _ _ h => by
    obtain ⟨vs, l, rfl, hv⟩ := h
    exact pieces_guards hv)

theorem dyn_guards {c : CEnv} {g : Option Str} {as : Dict Str} {xs : List Ir} (h : DynC c g as xs) :
    textGuardsList xs = [] := by
  unfold DynC at h
  split at h
  · subst h; rfl
  · obtain ⟨l, rfl⟩ := h; rfl

theorem mark_guards {c : CEnv} {t : String} {xs : List Ir} (h : MarkC c t xs) : textGuardsList xs = [] := by
  unfold MarkC at h
  split at h
  · obtain ⟨l, rfl⟩ := h; rfl
  · subst h; rfl

theorem script_guards {py : PyCompile} {ks : List DNode} {xs : List Ir} (h : ScriptC py ks xs) :
    textGuardsList xs = [] := by
  induction h with
  | nil => rfl
  | cdata _ ih => exact ih
  | text h _ ih =>
    rw [guards_append, ih, guards_nil (forall₂_right h fun a b h => ?_)]
    · rfl
    · cases a <;> obtain ⟨l, rfl⟩ := h <;> rfl

theorem end_guards {c : CEnv} {t : Str} {as : Dict Str} {xs : List Ir} (h : EndC c t (keepTag as) xs) :
    ∀ g ∈ textGuardsList xs, g ∈ (keepTag as).toList := by
  unfold EndC at h
  split at h
  · subst h; intro g hg; cases hg
  · obtain ⟨l, rfl⟩ := h
    intro g hg
    rw [textGuardsList, textGuards, keepTag_active, textGuardsList, List.append_nil] at hg
    exact hg

theorem guards_one (x : Ir) : textGuardsList [x] = textGuards x := by
  rw [textGuardsList, textGuardsList, List.append_nil]

mutual
theorem node_guards {c : CEnv} {p : Place} {tag : Str} {x : DNode} {ys : List Ir} {fs : Dict (List Ir)}
    (h : NodeC c p tag x ys fs) : ∀ g ∈ textGuardsList ys, g ∈ tagConds c.opts x := by
  intro g hg
  cases h with
  | text h => rw [pieces_guards h] at hg; cases hg
  | cdata h => rw [pieces_guards h] at hg; cases hg
  | hidden h => cases hg
  | comment h => cases hg
  | «module» h => cases hg
  | pi h => cases hg
  | auto ha hk hb =>
    cases hb with
    | child => cases hg
    | here => cases hg
  | block ha hd hk hb =>
    cases hb with
    | child => cases hg
    | here => cases hg
  | content ha hd h1 h2 h3 =>
    simp only [guards_append, textGuardsList, List.cons_append, attrs_guards h1, dyn_guards h2, textGuards,
      keepTag_active, List.append_nil, List.nil_append, List.mem_append, or_self] at hg
    rw [tagConds, List.mem_append]
    exact Or.inl hg
  | empty ha hd h1 h2 h3 =>
    simp only [guards_append, textGuardsList, List.cons_append, attrs_guards h1, dyn_guards h2, textGuards,
      keepTag_active, List.append_nil, List.nil_append, List.mem_append, or_self] at hg
    rw [tagConds, List.mem_append]
    exact Or.inl hg
  | script ha hd h1 h2 h3 h4 h5 h6 h7 h8 h9 =>
    simp only [guards_append, textGuardsList, List.cons_append, attrs_guards h1, dyn_guards h2, textGuards,
      keepTag_active, List.append_nil, List.nil_append, List.mem_append, script_guards h6, mark_guards h7,
      mark_guards h8] at hg
    rw [tagConds, List.mem_append]
    rcases hg with hg | hg | hg
    · exact Or.inl hg
    · exact Or.inl hg
    · exact Or.inl (end_guards h9 g hg)
  | elem ha hd h1 h2 h3 h4 h5 hk he =>
    simp only [guards_append, textGuardsList, List.cons_append, attrs_guards h1, dyn_guards h2, textGuards,
      keepTag_active, List.append_nil, List.nil_append, List.mem_append] at hg
    rw [tagConds, List.mem_append]
    rcases hg with hg | hg | hg | hg
    · exact Or.inl hg
    · exact Or.inl hg
    · exact Or.inr (kids_guards hk g hg)
    · exact Or.inl (end_guards he g hg)
  | replace ha hd => cases hg
  | imp ha hd => cases hg
  | incl ha hd => cases hg
  | ext ha hd hk =>
    rw [textGuardsList, textGuards, List.nil_append] at hg
    · rw [tagConds, List.mem_append]; exact Or.inr (kids_guards hk g hg)
    all_goals simp
  | inner ha hd hi hk =>
    rw [guards_one, textGuards] at hg
    rw [tagConds, List.mem_append]; exact Or.inr (kids_guards hk g hg)
  | defn ha hd hi hk => cases hg
  | call ha hd hk =>
    rw [guards_one, textGuards] at hg
    rw [tagConds, List.mem_append]; exact Or.inr (kids_guards hk g hg)
  | forD ha hd hk =>
    rw [guards_one, textGuards] at hg
    rw [tagConds, List.mem_append]; exact Or.inr (kids_guards hk g hg)
  | withD ha hd hk =>
    rw [guards_one, textGuards] at hg
    rw [tagConds, List.mem_append]; exact Or.inr (kids_guards hk g hg)
  | switchD ha hd hk hb =>
    rw [guards_one, textGuards] at hg
    rw [switchBody_eq] at hb
    split at hb
    · cases hb
      rw [tagConds, List.mem_append]; exact Or.inr (kids_guards hk g (guards_filter _ hg))
    · cases hb
  | caseD ha hd hk =>
    rw [guards_one, textGuards] at hg
    rw [tagConds, List.mem_append]; exact Or.inr (kids_guards hk g hg)
  | ifD ha hd hk =>
    rw [guards_one, textGuards] at hg
    rw [tagConds, List.mem_append]; exact Or.inr (kids_guards hk g hg)
  | elseD ha hd hk =>
    rw [guards_one, textGuards] at hg
    rw [tagConds, List.mem_append]; exact Or.inr (kids_guards hk g hg)
  | nop ha hd hk =>
    rw [tagConds, List.mem_append]; exact Or.inr (kids_guards hk g hg)

theorem kids_guards {c : CEnv} {p : Place} {raw : Bool} {tag : Str} {xs : List DNode} {ys : List Ir}
    {fs : Dict (List Ir)} (h : KidsC c p raw tag xs ys fs) :
    ∀ g ∈ textGuardsList ys, g ∈ tagCondsAll c.opts xs := by
  intro g hg
  cases h with
  | nil => cases hg
  | raw h =>
    rw [textGuardsList, List.mem_append] at hg
    rw [tagCondsAll, List.mem_append]
    rcases hg with hg | hg
    · cases hg
    · exact Or.inr (kids_guards h g hg)
  | cons h0 h1 h2 =>
    rw [guards_append, List.mem_append] at hg
    rw [tagCondsAll, List.mem_append]
    exact hg.imp (node_guards h1 g) (kids_guards h2 g)
end

/-- The conditions of the tags of a function. -/
def partConds : Part → List Str
  | .main c _ root => tagConds c.opts root
  | .body c _ _ ks => tagCondsAll c.opts ks
  | .block c _ _ _ ks => tagCondsAll c.opts ks

theorem body_guards {b : List Ir} {x : Part} (h : BodyR b x) : ∀ g ∈ textGuardsList b, g ∈ partConds x := by
  intro g hg
  cases x with
  | main c dt root =>
    obtain ⟨ys, fs, l, hn, hp, rfl⟩ := h
    rw [guards_append, List.mem_append] at hg
    rcases hg with hg | hg
    · split at hg <;> cases hg
    · exact node_guards hn g hg
  | body c p tag ks =>
    obtain ⟨fs, hk, hp⟩ := h
    exact kids_guards hk g hg
  | block c p tag name ks =>
    obtain ⟨b0, fs, l, hk, hp, rfl⟩ := h
    rw [guards_append, List.mem_append] at hg
    rcases hg with hg | hg
    · split at hg <;> cases hg
    · split at hg
      · cases hg
      · exact kids_guards hk g hg

mutual
theorem defs_conds (c : CEnv) (p : Place) (x : DNode) :
    ∀ f ∈ defs c p x, ∀ g ∈ partConds f.2, g ∈ tagConds c.opts x := by
  intro f hf g hg
  cases x with
  | elem t as l ks =>
    have hall : ∀ q, f ∈ defsAll c q ks → g ∈ tagConds c.opts (.elem t as l ks) := fun q h => by
      rw [tagConds, List.mem_append]
      exact Or.inr (defsAll_conds c q ks f h g hg)
    have hb : ∀ q u v, f.2 = .block c q u v ks → g ∈ tagConds c.opts (.elem t as l ks) := fun q u v h => by
      rw [h] at hg
      rw [tagConds, List.mem_append]
      exact Or.inr hg
    have hb' : ∀ q u, f.2 = .body c q u ks → g ∈ tagConds c.opts (.elem t as l ks) := fun q u h => by
      rw [h] at hg
      rw [tagConds, List.mem_append]
      exact Or.inr hg
    unfold defs at hf
    split at hf
    · rcases List.mem_append.1 hf with hf | hf
      · exact hall _ hf
      · rw [List.mem_singleton] at hf
        exact hb _ _ _ (congrArg Prod.snd hf)
    · split at hf
      · split at hf
        · cases hf
        · exact hall _ hf
      · cases hf
      · cases hf
      · cases hf
      · exact hall _ hf
      · rcases List.mem_append.1 hf with hf | hf
        · exact hall _ hf
        · rw [List.mem_singleton] at hf
          exact hb _ _ _ (congrArg Prod.snd hf)
      · rcases List.mem_append.1 hf with hf | hf
        · exact hall _ hf
        · split at hf
          · cases hf
          · rw [List.mem_singleton] at hf
            exact hb' _ _ (congrArg Prod.snd hf)
      · exact hall _ hf
  | _ =>
    rw [defs] at hf
    · cases hf
    · simp

theorem defsAll_conds (c : CEnv) (p : Place) (xs : List DNode) :
    ∀ f ∈ defsAll c p xs, ∀ g ∈ partConds f.2, g ∈ tagCondsAll c.opts xs := by
  intro f hf g hg
  cases xs with
  | nil => rw [defsAll] at hf; cases hf
  | cons x xs =>
    rw [defsAll, List.mem_append] at hf
    rw [tagCondsAll, List.mem_append]
    exact hf.imp (fun h => defs_conds c p x f h g hg) (fun h => defsAll_conds c _ xs f h g hg)
end

/-! ## Programs -/

section
variable {W : Type} {P : Prog (List Ir)} {Q : Prog Part} (hP : ProgRel BodyR P Q) (O : Oracle W)

include hP in
theorem part_rel {call : Mode → Nat → List Val → MT W Unit} {call' : Mode → Nat → List Val → MD W Unit}
    (hcall : ∀ mode f as, Rel BodyR (call mode f as) (call' mode f as)) (env : Env) {b : List Ir} {x : Part}
    (h : BodyR b x) : Rel BodyR (semBody P O call env b) (part Q O call' env x) := by
  cases x with
  | main c dt root =>
    obtain ⟨ys, fs, l, hn, hp, rfl⟩ := h
    have hs := node_silent hn hp
    have hsp := node_shows hn hp
    rw [part, semBody]
    have hroot : Rel BodyR (semList P O call env ys) (node Q O call' c env .root (M.pure ()) [] root) := by
      by_cases ht : tagOf root = "py:if".toList
      · obtain ⟨t, as, l, kk, l', b, rfl, ha, hd, hk, rfl⟩ := if_inv hn hp ht
        have hk' := placed_dir hp ha hd (by simp) (by simp) (by simp) (by simp) (by simp)
        rw [semList_one, sem, node, if_neg (by rw [ha]; exact Bool.false_ne_true), hd]
        refine (rel_test O env _).bind fun b => ?_
        cases b
        · exact Rel.pure _
        · exact kids_rel hP O hcall hk hk' env
      · exact node_rel hP O hcall hn hp ht env _
    have hst : startsElse ys = false := by
      cases hs : startsElse ys with
      | false => rfl
      | true => exact absurd (node_starts hn hp hs).1 no_tag
    cases hd : dt.isEmpty with
    | true =>
      simp only [if_true, List.nil_append, Bool.true_and, hs, M.pure_bind, Bool.not_true, Bool.false_or, hsp]
      split
      · exact rel_say []
      · exact RelAt.reading stable_true hroot _
    | false =>
      simp only [Bool.false_eq_true, if_false, Bool.false_and, List.cons_append, List.nil_append, List.isEmpty_cons]
      simp only [showsAny, shows, Bool.true_or, Bool.not_false, reading_true]
      exact rel_cons O hst (rel_say dt) hroot
  | body c p tag ks =>
    obtain ⟨fs, hk, hp⟩ := h
    rw [part, semBody, kids_silent hk hp, kids_show hk hp]
    split
    · exact rel_say []
    · exact RelAt.reading stable_true (kids_rel hP O hcall hk hp env) _
  | block c p tag name ks =>
    obtain ⟨b0, fs, l, hk, hp, rfl⟩ := h
    have hb : Rel BodyR (reading (showsAny (if b0.isEmpty then [.pass 0] else b0))
          (semList P O call env (if b0.isEmpty then [.pass 0] else b0)))
        (if silentAll c p ks then say [] else reading (speaksAny c p ks) (nodes Q O call' c env p false tag ks)) := by
      rw [← kids_silent hk hp, ← kids_show hk hp]
      split
      · simp only [shows_one, shows, reading_true]; rw [semList_one, sem]; exact rel_say []
      · exact RelAt.reading stable_true (kids_rel hP O hcall hk hp env) _
    have hs : startsElse (if b0.isEmpty then [.pass 0] else b0) = false := by
      split
      · rfl
      · exact kids_not hk hp no_tag
    have hne : ∀ a : List Ir, (a ++ if b0.isEmpty then [.pass 0] else b0).isEmpty = false := by
      intro a
      cases a with
      | nil => cases b0 <;> rfl
      | cons => rfl
    rw [part, semBody, hne, if_neg Bool.false_ne_true]
    rw [show showsAny ((if (afterAll c.opts p ks).child = true then
        [Ir.python (pyLines ("parent_block=parent.".toList ++ blockName name)).2 l] else []) ++
        if b0.isEmpty = true then [Ir.pass 0] else b0) = showsAny (if b0.isEmpty = true then [Ir.pass 0] else b0) by
      rw [shows_append]; split <;> rfl, semList_append P O call env hs]
    unfold reading at hb ⊢
    rw [M.bind_assoc]
    refine Rel.bind ?_ fun _ => hb
    split
    · rw [semList_one, sem]
      unfold python
      split
      · exact Rel.pure _
      · exact (Rel.ask _ _).bind fun _ => Rel.setVars _ _
    · exact rel_nil O env

include hP in
theorem callDoc_rel (n : Nat) (m : Mode) (f : Nat) (as : List Val) :
    Rel BodyR (semCall P O n m f as) (callDoc Q O n m f as) := by
  induction n generalizing m f as with
  | zero => exact Rel.throw _
  | succ n ih => exact callWith_rel O (fun env c d h => (part_rel hP O ih env h).at) ih m f as

end

/-! ## Templates -/

theorem set_rel {R : Str × List Ir → Str × Part → Prop} {d : Dict (List Ir)} {e : Dict Part}
    (h : List.Forall₂ R d e) (hk : ∀ a b, R a b → a.1 = b.1) {k : Str} {v : List Ir} {w : Part}
    (hv : R (k, v) (k, w)) : List.Forall₂ R (d.set k v) (e.set k w) := by
  induction h with
  | nil => exact .cons hv .nil
  | @cons a b as bs hab hs ih =>
    obtain ⟨a1, a2⟩ := a
    obtain ⟨b1, b2⟩ := b
    have he : a1 = b1 := hk _ _ hab
    subst he
    simp only [Dict.set]
    split
    · next h => subst h; exact .cons hv hs
    · exact .cons hab ih

theorem update_rel {R : Str × List Ir → Str × Part → Prop} {d : Dict (List Ir)} {e : Dict Part}
    (h : List.Forall₂ R d e) (hk : ∀ a b, R a b → a.1 = b.1) {fs : Dict (List Ir)} {gs : Dict Part}
    (hf : List.Forall₂ R fs gs) : List.Forall₂ R (Dict.update d fs) (Dict.update e gs) := by
  unfold Dict.update
  induction hf generalizing d e with
  | nil => exact h
  | @cons a b as bs hab hs ih =>
    obtain ⟨a1, a2⟩ := a
    obtain ⟨b1, b2⟩ := b
    have he : a1 = b1 := hk _ _ hab
    subst he
    exact ih (set_rel h hk hab)

theorem update_keys (d : Dict (List Ir)) (fs : Dict (List Ir)) (h : (d.map (·.1)).Nodup) :
    ((Dict.update d fs).map (·.1)).Nodup := by
  unfold Dict.update
  induction fs generalizing d with
  | nil => exact h
  | cons f fs ih => exact ih _ (keys_set _ _ _ h)

/-- Related, except for the main function. -/
def AlmostR (a : Str × List Ir) (b : Str × Part) : Prop := a.1 = b.1 ∧ (a.1 = mainDecl ∨ BodyR a.2 b.2)

theorem almost_rest {d : Dict (List Ir)} {e : Dict Part} (h : List.Forall₂ AlmostR d e)
    (hn : mainDecl ∉ d.map (·.1)) : FunsR d e := by
  induction h with
  | nil => exact .nil
  | cons hab hs ih =>
    simp only [List.map_cons, List.mem_cons, not_or] at hn
    refine .cons ⟨hab.1, ?_⟩ (ih hn.2)
    rcases hab.2 with h | h
    · exact absurd h.symm hn.1
    · exact h

theorem almost_set {d : Dict (List Ir)} {e : Dict Part} (h : List.Forall₂ AlmostR d e)
    (hn : (d.map (·.1)).Nodup) {v : List Ir} {w : Part} (hv : BodyR v w) :
    FunsR (d.set mainDecl v) (e.set mainDecl w) := by
  induction h with
  | nil => exact .cons ⟨rfl, hv⟩ .nil
  | @cons a b as bs hab hs ih =>
    obtain ⟨a1, a2⟩ := a
    obtain ⟨b1, b2⟩ := b
    have he : a1 = b1 := hab.1
    subst he
    simp only [List.map_cons, List.nodup_cons] at hn
    simp only [Dict.set]
    split
    · next h =>
      subst h
      exact .cons ⟨rfl, hv⟩ (almost_rest hs hn.1)
    · next h =>
      refine .cons ⟨rfl, ?_⟩ (ih hn.2)
      rcases hab.2 with h' | h'
      · exact absurd h' h
      · exact h'

theorem mem_set {α : Type} {d : Dict α} {k : Str} {v : α} {x : Str × α} (h : x ∈ d.set k v) : x ∈ d ∨ x.2 = v := by
  induction d with
  | nil =>
    simp only [Dict.set, List.mem_singleton] at h
    subst h
    exact Or.inr rfl
  | cons a d ih =>
    obtain ⟨a1, a2⟩ := a
    simp only [Dict.set] at h
    split at h
    · rcases List.mem_cons.1 h with h | h
      · subst h; exact Or.inr rfl
      · exact Or.inl (List.mem_cons_of_mem _ h)
    · rcases List.mem_cons.1 h with h | h
      · subst h; exact Or.inl (List.mem_cons_self ..)
      · exact (ih h).imp (List.mem_cons_of_mem _) id

theorem mem_update {α : Type} {d fs : Dict α} {x : Str × α} (h : x ∈ Dict.update d fs) :
    x ∈ d ∨ ∃ f ∈ fs, x.2 = f.2 := by
  unfold Dict.update at h
  induction fs generalizing d with
  | nil => exact Or.inl h
  | cons f fs ih =>
    rcases ih h with h | ⟨g, hg, h⟩
    · rcases mem_set h with h | h
      · exact Or.inl h
      · exact Or.inr ⟨f, List.mem_cons_self .., h⟩
    · exact Or.inr ⟨g, List.mem_cons_of_mem _ hg, h⟩

theorem root_eq (t : Template) : t.root? = match t.doc.kids.filter fun n => !isComment n with
    | [root] => some root
    | _ => none := by
  unfold Template.root?
  generalize hx : List.filter _ t.doc.kids = l
  have : l = t.doc.kids.filter fun n => !isComment n := by
    rw [← hx]
    exact List.filter_congr fun x _ => by cases x <;> rfl
  rw [← this]
  rfl

theorem doctype_eq (t : Template) (root : DNode) :
    ∃ l, (if t.conf.opts.isFragment || (after t.conf.opts .root root).child then []
      else doctypeNode t.conf.mode t.doc.dtd) =
        (if (t.doctype root).isEmpty then [] else [.text (t.doctype root) none l]) := by
  refine ⟨1, ?_⟩
  unfold Template.doctype doctypeNode
  split
  · rfl
  · split
    · rw [if_neg]
      simp
    · split
      · rfl
      · rfl

/-- A compiled template. -/
theorem template_rel {t : Template} {u : Tmpl} (h : compileDoc t.conf t.doc = .ok u) (hp : t.placed = true) :
    FunsR (u.defs.map fun d => (d.decl, d.body)) t.functions ∧
      ∀ f ∈ t.functions, ∀ g ∈ partConds f.2, ∃ x ∈ t.doc.kids, g ∈ tagConds t.conf.opts x := by
  unfold compileDoc at h
  split at h
  · next root hroot =>
    have hmem : root ∈ t.doc.kids := List.mem_of_mem_filter (p := fun n => !isComment n)
      (by rw [hroot]; exact List.mem_cons_self ..)
    have hpl : (placed t.conf.opts .no [] root).isSome = true := by
      unfold Template.placed at hp
      rw [List.all_eq_true] at hp
      exact hp _ hmem
    have hr : t.root? = some root := by rw [root_eq, hroot]
    split at h
    · cases h
    · next body s hc =>
      cases h
      obtain ⟨fs, hn, hm, hf⟩ := gives_node t.conf ⟨none, false, []⟩ .root [] (fun q hq => by cases hq) root .no []
        hpl .start body s ⟨rfl, rfl, rfl⟩ hc
      have hfun : t.functions = Dict.set (Dict.update [(mainDecl, Part.main t.conf (t.doctype root) root)]
          (defs t.conf .root root)) mainDecl (Part.main t.conf (t.doctype root) root) := by
        unfold Template.functions
        rw [hr]
        rfl
      refine ⟨?_, ?_⟩
      · rw [hfun, List.map_map]
        have hid : ((fun d : Def => (d.decl, d.body)) ∘ fun f : Str × List Ir => (⟨f.1, f.2, 0⟩ : Def)) = id := by
          funext f; rfl
        rw [hid, List.map_id, hf]
        refine almost_set (update_rel ?_ (fun a b h => h.1) ?_) (update_keys _ _ ?_) ?_
        · exact .cons ⟨rfl, Or.inl rfl⟩ .nil
        · exact (node_funs hn hpl).imp fun a b h => ⟨h.1, Or.inr h.2⟩
        · simp [CState.start]
        · obtain ⟨l, hl⟩ := doctype_eq t root
          refine ⟨body, fs, l, hn, hpl, ?_⟩
          rw [← hl]
          have hch : s.isChild = (after t.conf.opts .root root).child := hm.child
          rw [hch]
          cases t.conf.opts.isFragment <;> cases (after t.conf.opts .root root).child <;> rfl
      · intro f hf g hg
        refine ⟨root, hmem, ?_⟩
        rw [hfun] at hf
        have hmain : f.2 = Part.main t.conf (t.doctype root) root → g ∈ tagConds t.conf.opts root := by
          intro h
          rw [h] at hg
          exact hg
        rcases mem_set hf with hf | hf
        · rcases mem_update hf with hf | ⟨f', hf', he⟩
          · rw [List.mem_singleton] at hf
            exact hmain (by rw [hf])
          · rw [he] at hg
            exact defs_conds _ _ _ f' hf' g hg
        · exact hmain hf
  · cases h

theorem funs_guards {us : List (Str × List Ir)} {fs : Dict Part} (h : FunsR us fs) :
    ∀ u ∈ us, casesIn false u.2 = true ∧
      ∀ g ∈ textGuardsList u.2, ∃ f ∈ fs, g ∈ partConds f.2 := by
  induction h with
  | nil => intro u hu; cases hu
  | cons hab hs ih =>
    intro u hu
    rcases List.mem_cons.1 hu with rfl | hu
    · exact ⟨body_cases hab.2, fun g hg => ⟨_, List.mem_cons_self .., body_guards hab.2 g hg⟩⟩
    · obtain ⟨h1, h2⟩ := ih u hu
      refine ⟨h1, fun g hg => ?_⟩
      obtain ⟨f, hf, h⟩ := h2 g hg
      exact ⟨f, List.mem_cons_of_mem _ hf, h⟩

/-- The compiled templates. -/
def CompiledR (t : Template) (u : Tmpl × Dict Val) : Prop :=
  compileDoc t.conf t.doc = .ok u.1 ∧ u.2 = t.base ∧ t.placed = true

theorem program_rel {ts : List Template} {S : Source} (h : List.Forall₂ CompiledR ts S.tmpls) :
    ProgRel BodyR (Spec.Sem.trees S) (program ts S.load S.aliasFor) := by
  refine ⟨rfl, rfl, ?_⟩
  simp only [Spec.Sem.trees, program]
  rw [List.forall₂_map_left_iff, List.forall₂_map_right_iff]
  refine h.flip.imp fun u t h => ?_
  obtain ⟨h1, h2, h3⟩ := h
  exact ⟨h2, methodsOf_rel (template_rel h1 h3).1⟩

theorem compiled_cases {ts : List Template} {us : List (Tmpl × Dict Val)} (h : List.Forall₂ CompiledR ts us) :
    ∀ u ∈ us, Spec.Sem.casesTmpl u.1 = true := by
  refine forall₂_right h fun t u h => ?_
  obtain ⟨h1, h2, h3⟩ := h
  unfold Spec.Sem.casesTmpl
  rw [List.all_eq_true]
  intro d hd
  exact (funs_guards (template_rel h1 h3).1 (d.decl, d.body) (List.mem_map_of_mem hd)).1

theorem compiled_guards {ts : List Template} {us : List (Tmpl × Dict Val)} (h : List.Forall₂ CompiledR ts us) :
    ∀ u ∈ us, ∀ d ∈ u.1.defs, ∀ g ∈ textGuardsList d.body,
      ∃ t ∈ ts, ∃ x ∈ t.doc.kids, g ∈ tagConds t.conf.opts x := by
  induction h with
  | nil => intro u hu; cases hu
  | @cons t u ts us h _ ih =>
    intro v hv d hd g hg
    rcases List.mem_cons.1 hv with rfl | hv
    · obtain ⟨h1, h2, h3⟩ := h
      have := template_rel h1 h3
      obtain ⟨f, hf, hgf⟩ := (funs_guards this.1 (d.decl, d.body) (List.mem_map_of_mem hd)).2 g hg
      exact ⟨t, List.mem_cons_self .., this.2 f hf g hgf⟩
    · obtain ⟨t', ht', h⟩ := ih v hv d hd g hg
      exact ⟨t', List.mem_cons_of_mem _ ht', h⟩

/-- Reading the trees is reading the documents. -/
theorem rendered_rel {W : Type} {ts : List Template} {S : Source} (h : List.Forall₂ CompiledR ts S.tmpls)
    (O : Oracle W) (n i : Nat) (context : Dict Val) (w : W) :
    ResRel BodyR (emptyStore _ w) (Spec.Sem.semProcess S O n i context w)
      (rendered (program ts S.load S.aliasFor) O n i context w) :=
  Rel.bind (R := BodyR) (Rel.newInst (program_rel h) i context)
    (fun j => Rel.emitMain (callDoc_rel (program_rel h) O n) _ j) _ _ (emptyStore_rel w) trivial

end Kajiki.DocComp
