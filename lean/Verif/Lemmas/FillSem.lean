import Verif.Lemmas.FillText
import Verif.Lemmas.StaticSem

/-! What documents with expressions mean. -/

namespace Kajiki.FillDoc
open Kajiki.Run Kajiki.Spec.Fill Kajiki.Spec.DocSem
open Kajiki.Spec.Static (reserved quoted attrText)
open Kajiki.StaticDoc (Ready Kept Says Translates)
open Kajiki.Spec.XmlText (Piece)

/-! ## Documents -/

/-- A node of the document, with its texts as items. -/
inductive T
  | elem (tag : Str) (attrs : List (Str × List Item)) (ln : Nat) (kids : List T)
  | text (ts : List Item) (e : Bool) (ln : Nat)
  | cdata (d : Str) (ln : Nat)
  | comment (d : Str) (ln : Nat)

mutual
/-- The node of the document. -/
def toD : T → DNode
  | .elem tag attrs ln kids => .elem tag (attrs.map fun kv => (kv.1, written kv.2)) ln (toDAll kids)
  | .text ts e ln => .text (enc e ts) e ln
  | .cdata d ln => .cdata d ln
  | .comment d ln => .comment d ln

/-- The same for several nodes. -/
def toDAll : List T → List DNode
  | [] => []
  | x :: xs => toD x :: toDAll xs
end

theorem toDAll_append (xs ys : List T) : toDAll (xs ++ ys) = toDAll xs ++ toDAll ys := by
  induction xs with
  | nil => rfl
  | cons x xs ih => rw [List.cons_append, toDAll, toDAll, ih]; rfl

section
variable (val : Str → Val)

/-- A text in a script. -/
def scriptOut : T → Str
  | .text ts _ _ => rawShown val ts
  | _ => []

/-- The content of a script. -/
def scriptSer (mode : Str) (kids : List T) : Str :=
  if mode = "xml".toList then "/*<![CDATA[*/".toList ++ (kids.flatMap (scriptOut val) ++ "/*]]>*/".toList)
  else kids.flatMap (scriptOut val)

mutual
/-- A node as it is shown. -/
def ser (o : Opts) (mode : Str) : T → Str
  | .text ts e _ => if e then textShown val ts else rawShown val ts
  | .cdata d _ => d
  | .comment d _ => if ['!'].isPrefixOf d then [] else "<!-- ".toList ++ d ++ " -->".toList
  | .elem t as _ kids =>
    '<' :: t ++ ((sorted as).flatMap (attrShown val mode) ++
      if kids.isEmpty then emptyTag mode t
      else ">".toList ++ ((if script o t then scriptSer val mode kids else serAll o mode kids) ++
        if html mode && void t then [] else close t))

/-- Several nodes as they are shown. -/
def serAll (o : Opts) (mode : Str) : List T → Str
  | [] => []
  | x :: xs => ser o mode x ++ serAll o mode xs
end
end

/-- Text or the marker of a CDATA section. -/
def isTextT : T → Bool
  | .text _ _ _ => true
  | .cdata _ _ => true
  | _ => false

/-- A text with known values. -/
structure Known (py : PyCompile) (G : Str → Prop) (e : Bool) (ts : List Item) : Prop where
  text : Text py e ts
  known : ∀ x ∈ expressions ts, G x

mutual
/-- There are no directives, and the values are known. -/
def Ok (py : PyCompile) (G : Str → Prop) (o : Opts) : T → Prop
  | .text ts e _ => Known py G e ts
  | .cdata _ _ => True
  | .comment _ _ => True
  | .elem t as _ kids =>
    reserved t = false ∧ (∀ kv ∈ as, reserved kv.1 = false ∧ Known py G false kv.2) ∧ (as.map (·.1)).Nodup ∧
    o.autoblocks.contains t = false ∧ (script o t = true → ∀ x ∈ kids, isTextT x = true) ∧ OkAll py G o kids

/-- The same for several nodes. -/
def OkAll (py : PyCompile) (G : Str → Prop) (o : Opts) : List T → Prop
  | [] => True
  | x :: xs => Ok py G o x ∧ OkAll py G o xs
end

theorem okAll_iff (py : PyCompile) (G : Str → Prop) (o : Opts) (xs : List T) :
    OkAll py G o xs ↔ ∀ x ∈ xs, Ok py G o x := by
  induction xs with
  | nil => simp [OkAll]
  | cons x xs ih => rw [OkAll, ih]; simp

theorem plain_keys {as : List (Str × List Item)} (h : ∀ kv ∈ as, reserved kv.1 = false) :
    ∀ kv ∈ as.map (fun kv => (kv.1, written kv.2)), reserved kv.1 = false := by
  intro kv hkv
  obtain ⟨kv, h1, rfl⟩ := List.mem_map.1 hkv
  exact h kv h1

theorem sortItems_written (as : List (Str × List Item)) (hn : (as.map (·.1)).Nodup) :
    sortItems (as.map fun kv => (kv.1, written kv.2)) = (sorted as).map fun kv => (kv.1, written kv.2) := by
  rw [← StaticDoc.sorted_eq _ (by rw [List.map_map]; exact hn)]
  unfold Spec.Static.sorted Spec.Fill.sorted
  exact (List.map_insertionSort (r := fun a b : Str × List Item => a.1 ≤ b.1) (s := fun a b : Str × Str => a.1 ≤ b.1)
    (fun kv => (kv.1, written kv.2)) as fun _ _ _ _ => Iff.rfl).symm

/-! ## Values -/

section
variable {W : Type} {I : Inst} {env : Env} {O : Oracle W} {val : Str → Val} {context : Dict Val}

theorem scopes_blank (fs : List Frame) (h : ∀ f ∈ fs, f.vars = []) (n : Nat) (i : Option Nat) :
    ∀ d ∈ scopes fs n i, d = [] := by
  induction n generalizing i with
  | zero => intro d hd; cases hd
  | succ n ih =>
    cases i with
    | none => intro d hd; cases hd
    | some i =>
      rw [scopes]
      intro d hd
      cases hf : fs[i]? with
      | none => rw [hf] at hd; cases hd
      | some f =>
        rw [hf] at hd
        rcases List.mem_cons.1 hd with rfl | hd
        · exact h f (List.mem_iff_getElem?.2 ⟨i, hf⟩)
        · exact ih _ d hd

/-- The variables of the context can be seen. -/
def Shows (context : Dict Val) (I : Inst) : Prop :=
  ∀ k x, Dict.get context k = some x → k ≠ "_".toList → k ≠ "value_of".toList → Dict.get I.globals k = some x

/-- The expression has the value. -/
def Given (O : Oracle W) (val : Str → Val) (context : Dict Val) (x : Str) : Prop :=
  (∀ v w, sees context v → O.eval x v w = (.ok (val x), w)) ∧ settled (val x) = true

theorem eval_given (hI : Shows context I) {x : Str} (hx : Given O val context x) (s : Store Part W)
    (hs : Ready I env s) : evalM O env x s = ⟨.nil, s, .ok (val x)⟩ := by
  unfold evalM ask
  rw [hx.1 (view env s) s.world ⟨scopes_blank _ hs.blank _ _, I, hs.inst, hI⟩]

variable (call : Mode → Nat → List Val → MD W Unit)

theorem emit_escape (mode : Mode) {v : Val} (h : settled v = true) (s : Store Part W) :
    emit call mode (escape v) s = ⟨⟨escapedValue v, !isNone v⟩, s, .ok ()⟩ := by
  have : ∀ v : Val, escape v = .str (escapeStr (toStr v)) → escapedValue v = quoted (toStr v) → isNone v = false →
      emit call mode (escape v) s = ⟨⟨escapedValue v, !isNone v⟩, s, .ok ()⟩ := by
    intro v h1 h2 h3
    rw [h1, StaticDoc.emit_str, h2, h3, StaticDoc.quoted_eq]
    rfl
  cases v with
  | none => rfl
  | flatItems => cases h
  | flatCall => cases h
  | html a b c => rw [escape, StaticDoc.emit_str]; rfl
  | bool b => exact this (.bool b) rfl rfl rfl
  | int i => exact this (.int i) rfl rfl rfl
  | str t => exact this (.str t) rfl rfl rfl
  | obj a b c => exact this (.obj a b c) rfl rfl rfl
  | unit => exact this .unit rfl rfl rfl
  | pairs a b => exact this (.pairs a b) rfl rfl rfl
  | inst i => exact this (.inst i) rfl rfl rfl
  | meth a b => exact this (.meth a b) rfl rfl rfl
  | fn i => exact this (.fn i) rfl rfl rfl

theorem emit_plain {v : Val} (h : settled v = true) (s : Store Part W) :
    emit call .collect v s = ⟨⟨plainValue v, !isNone v⟩, s, .ok ()⟩ := by
  cases v with
  | none => rfl
  | flatItems => cases h
  | flatCall => cases h
  | _ => rfl

theorem Says.escaped (hI : Shows context I) {x : Str} (hx : Given O val context x) :
    Says I env (escaped O call env x) (escapedValue (val x)) := by
  intro s hs
  refine ⟨s, !isNone (val x), ?_, .refl s⟩
  unfold Spec.DocSem.escaped M.bind
  rw [eval_given hI hx s hs]
  dsimp only
  rw [emit_escape call env.mode hx.2]
  rfl

variable {py : PyCompile}

/-- A text: the characters as they are in the document, and the values. -/
theorem says_pieces (e : Bool) {ts : List Item} {f : Str ⊕ Str → MD W Unit} {g : Str ⊕ Str → Str}
    (hl : ∀ t, Says I env (f (.inl t)) (g (.inl t)))
    (hr : ∀ x ∈ expressions ts, Says I env (f (.inr x)) (g (.inr x))) :
    Says I env (M.each f ((pieces e ts).map Piece.value)) (((pieces e ts).map Piece.value).flatMap g) := by
  refine StaticDoc.Says.each fun a ha => ?_
  obtain ⟨p, hp, rfl⟩ := List.mem_map.1 ha
  cases p with
  | text t => exact hl t
  | dollar => exact hl _
  | name n =>
    refine hr n ?_
    have : ∀ ts : List Item, Piece.name n ∈ FillDoc.pieces e ts → Item.name n ∈ ts := by
      intro ts
      induction ts with
      | nil => intro h; cases h
      | cons t ts ih =>
        intro h
        refine List.mem_cons.2 ?_
        cases t with
        | ch c =>
          right
          rw [FillDoc.pieces] at h
          split at h
          · exact ih (by simpa using h)
          · unfold StaticDoc.pre at h
            split at h
            · next u ps hu => exact ih (by rw [hu]; simpa using h)
            · exact ih (by simpa using h)
        | name m =>
          rw [FillDoc.pieces] at h
          rcases List.mem_cons.1 h with h | h
          · cases h; exact .inl rfl
          · exact .inr (ih h)
        | expr ws y => rw [FillDoc.pieces] at h; exact .inr (ih (by simpa using h))
    exact List.mem_filterMap.2 ⟨_, this ts hp, rfl⟩
  | expr ws x => exact hr x (List.mem_filterMap.2 ⟨_, pieces_expr e ts ws x hp, rfl⟩)

theorem textShown_out (ts : List Item) :
    textShown val ts = ts.flatMap (Item.out (escChar true) fun x => escapedValue (val x)) := by
  unfold textShown
  congr 1
  funext t
  cases t with
  | ch c =>
    have := StaticDoc.shown_eq [c]
    simpa [Spec.Static.shown, saxEscape, Item.out, escChar] using this
  | _ => rfl

theorem rawShown_out (ts : List Item) :
    rawShown val ts = ts.flatMap (Item.out (escChar false) fun x => escapedValue (val x)) := by
  unfold rawShown
  congr 1

theorem Says.text (hO : Translates O id) (hI : Shows context I) (c : CEnv) (tag : Str) (e : Bool) (ts : List Item)
    (h : Known c.py (Given O val context) e ts) :
    Says I env (text O call c env tag (enc e ts)) (if e then textShown val ts else rawShown val ts) := by
  have h1 : (if e = true then textShown val ts else rawShown val ts) =
      ((pieces e ts).map Piece.value).flatMap (Sum.elim id fun x => escapedValue (val x)) := by
    rw [pieces_out]
    cases e
    · exact rawShown_out ts
    · exact textShown_out ts
  rw [h1]
  unfold Spec.DocSem.text
  rw [cut_enc h.text]
  refine says_pieces e (fun t => ?_) fun x hx => Says.escaped call hI (h.known x hx)
  dsimp only
  split
  · exact .say t
  · have := StaticDoc.Says.saying (I := I) (env := env) call hO t
    simp only [id_eq, ite_self] at this
    exact this

theorem resolve_plain {s : Str} (h : ∀ c ∈ s, c ≠ '&' ∧ c ≠ '<' ∧ c ≠ '>') : resolve s = s := by
  have := unescape_saxEscape s
  rw [saxEscape_plain h] at this
  unfold resolve
  rw [this]

theorem plain_expression {ts : List Item} (h : ∀ t ∈ ts, t.ok py true) {x : Str} (hx : x ∈ expressions ts) :
    ∀ c ∈ x, c ≠ '&' ∧ c ≠ '<' ∧ c ≠ '>' := by
  obtain ⟨t, ht, hx⟩ := List.mem_filterMap.1 hx
  have := h t ht
  cases t with
  | ch c => cases hx
  | name n =>
    cases hx
    intro c hc
    obtain ⟨h1, h2, h3, -⟩ := nameChar_plain (name_plain this c hc)
    exact ⟨h1, h2, h3⟩
  | expr ws y =>
    cases hx
    obtain ⟨h7, h8, h9⟩ := this.2.2.2.2.2 rfl
    intro c hc
    refine ⟨?_, ?_, ?_⟩ <;> (rintro rfl; contradiction)

theorem Says.scriptText (hI : Shows context I) (c : CEnv) (e : Bool) (ts : List Item)
    (h : Known c.py (Given O val context) e ts) :
    Says I env (scriptText O call c env e (enc e ts)) (rawShown val ts) := by
  unfold Spec.DocSem.scriptText
  rw [cut_enc h.text]
  cases e with
  | false =>
    rw [rawShown_out, ← pieces_out]
    exact says_pieces false (fun t => .say t) fun x hx => Says.escaped call hI (h.known x hx)
  | true =>
    have h1 : rawShown val ts = ((pieces true ts).map Piece.value).flatMap
        (Sum.elim resolve fun x => escapedValue (val x)) := by
      rw [rawShown_out, ← pieces_out, pieces_esc, List.map_map, List.flatMap_map, List.flatMap_map]
      congr 1
      funext p
      cases p with
      | text t =>
        change t = resolve (saxEscape t)
        unfold resolve
        rw [unescape_saxEscape]
      | dollar =>
        change ['$'] = resolve ['$']
        rw [resolve_plain (by decide)]
      | _ => rfl
    rw [h1]
    refine says_pieces true (fun t => .say _) fun x hx => ?_
    dsimp only
    rw [if_pos rfl, resolve_plain (plain_expression h.text.1 hx)]
    exact Says.escaped call hI (h.known x hx)

theorem Says.scriptContent (hI : Shows context I) (c : CEnv) (o : Opts) (kids : List T)
    (hk : OkAll c.py (Given O val context) o kids) :
    Says I env (scriptContent O call c env (toDAll kids)) (scriptSer val c.mode kids) := by
  have h : ∀ f : DNode → MD W Unit, (∀ d e l, f (.text d e l) = Spec.DocSem.scriptText O call c env e d) →
      (∀ x, (∀ d e l, x ≠ .text d e l) → f x = M.pure ()) →
      Says I env (M.each f (toDAll kids)) (kids.flatMap (scriptOut val)) := by
    intro f hf hf'
    induction kids with
    | nil => exact .pure
    | cons x xs ih =>
      rw [toDAll, List.flatMap_cons]
      refine StaticDoc.Says.bind ?_ (ih hk.2)
      have := hk.1
      cases x with
      | text ts e ln => rw [toD, hf]; exact Says.scriptText call hI c e ts this
      | _ => rw [toD, hf' _ (by intros; simp)]; exact .pure
  have h' := fun f hf hf' => StaticDoc.Says.bind (StaticDoc.Says.pure (I := I) (env := env))
    (StaticDoc.Says.bind (h f hf hf') StaticDoc.Says.pure)
  simp only [List.nil_append, List.append_nil] at h'
  unfold Spec.DocSem.scriptContent scriptSer
  split
  · refine StaticDoc.Says.bind (.say _) (StaticDoc.Says.bind (h _ (fun _ _ _ => rfl) fun x hx => ?_) (.say _))
    cases x <;> first | rfl | exact absurd rfl (hx _ _ _)
  · refine h' _ (fun _ _ _ => rfl) fun x hx => ?_
    cases x <;> first | rfl | exact absurd rfl (hx _ _ _)

/-! ## Attributes -/

/-- The part is there. -/
def there (val : Str → Val) : Str ⊕ Str → Bool
  | .inl _ => true
  | .inr x => !isNone (val x)

theorem each_parts (hI : Shows context I) (l : List (Str ⊕ Str))
    (hl : ∀ x, .inr x ∈ l → Given O val context x) (env : Env) (hm : env.mode = .collect) (f : Str ⊕ Str → MD W Unit)
    (hf : ∀ t, f (.inl t) = say t) (hf' : ∀ x, f (.inr x) = unescaped O call env x) (s : Store Part W)
    (hs : Ready I env s) :
    M.each f l s = ⟨⟨l.flatMap (Sum.elim id fun x => plainValue (val x)), l.any (there val)⟩, s, .ok ()⟩ := by
  induction l with
  | nil => rfl
  | cons a l ih =>
    have ih := ih fun x hx => hl x (by simp [hx])
    cases a with
    | inl t =>
      simp only [M.each, M.bind, hf, say, M.tell, ih]
      rfl
    | inr x =>
      have hx := hl x (by simp)
      simp only [M.each, M.bind, hf', unescaped, eval_given hI hx s hs, hm, emit_plain call hx.2, ih]
      rfl

theorem expressions_inr {e : Bool} {ts : List Item} {x : Str} (h : .inr x ∈ (pieces e ts).map Piece.value) :
    x ∈ expressions ts := by
  induction ts with
  | nil => cases h
  | cons t ts ih =>
    cases t with
    | ch c =>
      have hc : expressions (.ch c :: ts) = expressions ts := rfl
      rw [hc]
      rw [pieces] at h
      split at h
      · exact ih (by simpa [Piece.value] using h)
      · unfold StaticDoc.pre at h
        split at h
        · next u ps hu => exact ih (by rw [hu]; simpa [Piece.value] using h)
        · exact ih (by simpa [Piece.value] using h)
    | name n =>
      rw [pieces, List.map_cons] at h
      have hc : expressions (.name n :: ts) = n :: expressions ts := rfl
      rw [hc]
      rcases List.mem_cons.1 h with h | h
      · cases h; simp
      · exact List.mem_cons_of_mem _ (ih h)
    | expr ws y =>
      rw [pieces, List.map_cons] at h
      have hc : expressions (.expr ws y :: ts) = y :: expressions ts := rfl
      rw [hc]
      rcases List.mem_cons.1 h with h | h
      · cases h; simp
      · exact List.mem_cons_of_mem _ (ih h)

theorem there_pieces (ts : List Item) :
    ((pieces false ts).map Piece.value).any (there val) = !ts.all (absent val) := by
  induction ts with
  | nil => rfl
  | cons t ts ih =>
    cases t with
    | ch c =>
      have : (Item.ch c :: ts).all (absent val) = false := rfl
      rw [this, pieces]
      split
      · rfl
      · unfold StaticDoc.pre
        split <;> rfl
    | name n =>
      rw [pieces, List.map_cons, List.any_cons, ih, List.all_cons, Bool.not_and]
      rfl
    | expr ws y =>
      rw [pieces, List.map_cons, List.any_cons, ih, List.all_cons, Bool.not_and]
      rfl

theorem pieces_empty (e : Bool) (ts : List Item) : ((pieces e ts).map Piece.value).isEmpty = ts.isEmpty := by
  cases ts with
  | nil => rfl
  | cons t ts =>
    cases t with
    | ch c =>
      rw [pieces]
      split
      · rfl
      · unfold StaticDoc.pre
        split <;> rfl
    | _ => rfl

theorem attrValue_out (ts : List Item) :
    ((pieces false ts).map Piece.value).flatMap (Sum.elim id fun x => plainValue (val x)) = attrValue val ts := by
  rw [pieces_out]
  unfold Spec.Fill.attrValue
  congr 1

theorem attrValue_run (hI : Shows context I) (c : CEnv) (env : Env) (hm : env.mode = .collect) (ts : List Item)
    (h : Known c.py (Given O val context) false ts) (s : Store Part W) (hs : Ready I env s) :
    Spec.DocSem.attrValue O call c env (written ts) s =
      ⟨⟨attrValue val ts, ts.isEmpty || !ts.all (absent val)⟩, s, .ok ()⟩ := by
  unfold Spec.DocSem.attrValue
  rw [written_eq, cut_enc h.text, pieces_empty]
  cases ts with
  | nil => rfl
  | cons t ts =>
    rw [if_neg (by simp), each_parts call hI _ (fun x hx => h.known x (expressions_inr hx)) env hm _ (fun _ => rfl)
      (fun _ => rfl) s hs, there_pieces, attrValue_out]
    rfl

theorem renderCollected_none (mode k : Str) : renderCollected k mode none = [] := by
  have : (if (emptyAttrs.contains k && boolLike .none) = true then
      if truthy .none = true then Val.str k else .none else .none) = .none := by
    split <;> rfl
  unfold renderCollected renderAttr
  dsimp only [Option.elim]
  split
  · rfl
  · next h => exact absurd this h

theorem Says.attrPart (hI : Shows context I) (c : CEnv) (k : Str) (ts : List Item)
    (h : Known c.py (Given O val context) false ts) :
    Says I env (Spec.DocSem.attrPart O call c env none k (written ts)) (attrShown val c.mode (k, ts)) := by
  intro s hs
  unfold Spec.DocSem.attrPart under
  dsimp only
  let fr : Frame := ⟨[], liveScope s.frames (some env.frame), none⟩
  let s1 : Store Part W := { s with frames := s.frames ++ [fr] }
  have hk1 : Kept s s1 := ⟨rfl, rfl, by simp [s1], fun h0 f hf => by
    rcases List.mem_append.1 hf with hf | hf
    · exact h0 f hf
    · rw [List.mem_singleton.1 hf]⟩
  let env1 : Env := { env with frame := s.frames.length, mode := .collect }
  have hs1 : Ready I env1 s1 := by
    have := hs.kept hk1
    exact ⟨by simp [s1, env1], this.blank, this.inst, this.kj, this.gettext⟩
  let co : Option Str := if (ts.isEmpty || !ts.all (absent val)) = true then some (attrValue val ts) else none
  let s' : Store Part W := { s1 with frames := s1.frames.modify env.frame fun f => { f with coll := co } }
  have h1 : collectM env (fun env => Spec.DocSem.attrValue O call c env (written ts)) s = ⟨.nil, s', .ok ()⟩ := by
    simp only [collectM, newFrame, M.bind, M.capture]
    rw [attrValue_run call hI c env1 rfl ts h s1 hs1]
    simp only [modFrame, M.modify]
    rfl
  have hk : Kept s s' := ⟨rfl, rfl, by simp [s', s1], fun h0 => by
    have h1 := hk1.blank h0
    intro f hf
    obtain ⟨n, hn⟩ := List.mem_iff_getElem?.1 hf
    simp only [s', List.getElem?_modify] at hn
    cases hq : s1.frames[n]? with
    | none => rw [hq] at hn; cases hn
    | some q =>
      rw [hq] at hn
      have := h1 q (List.mem_iff_getElem?.2 ⟨n, hq⟩)
      simp only [Option.map_eq_map, Option.map_some, Option.some.injEq] at hn
      subst hn
      split <;> exact this⟩
  have hl : (s'.frames[env.frame]?).bind (·.coll) = co := by
    have : env.frame < (s.frames ++ [fr]).length := by
      rw [List.length_append]; exact Nat.lt_add_right _ hs.frame
    simp [s', s1, List.getElem?_eq_getElem this]
  obtain ⟨s2, a2, e2, k2⟩ := StaticDoc.Says.emitStrs (W := W) (I := I) (env := env) (renderCollected k c.mode co) s'
    (hs.kept hk)
  refine ⟨s2, a2, ?_, hk.trans k2⟩
  unfold M.bind
  rw [h1]
  dsimp only
  have : attrM env k c.mode s' = Run.emitStrs (renderCollected k c.mode co) s' := by
    simp only [attrM, M.bind, M.get, hl]
    rfl
  rw [this, e2]
  have hco : (renderCollected k c.mode co).flatten = attrShown val c.mode (k, ts) := by
    unfold attrShown
    dsimp only [co]
    by_cases ha : (ts.isEmpty || !ts.all (absent val)) = true
    · rw [if_pos ha, StaticDoc.renderCollected_text, if_neg]
      revert ha
      cases ts.isEmpty <;> cases ts.all (absent val) <;> simp
    · rw [if_neg ha, renderCollected_none, if_pos]
      · rfl
      · revert ha
        cases ts.isEmpty <;> cases ts.all (absent val) <;> simp
  rw [hco]
  rfl

theorem Says.startTag (hI : Shows context I) (c : CEnv) (t : Str) (as : List (Str × List Item))
    (h : ∀ kv ∈ as, reserved kv.1 = false ∧ Known c.py (Given O val context) false kv.2) (hn : (as.map (·.1)).Nodup) :
    Says I env (Spec.DocSem.startTag O call c env t (as.map fun kv => (kv.1, written kv.2)))
      ('<' :: t ++ (sorted as).flatMap (attrShown val c.mode)) := by
  have h' := plain_keys fun kv hkv => (h kv hkv).1
  unfold Spec.DocSem.startTag
  rw [StaticDoc.keepTag_plain h', StaticDoc.attr_reserved h' (by decide +kernel), StaticDoc.special_plain h',
    sortItems_written as hn]
  simp only [List.isEmpty_nil, if_true]
  refine StaticDoc.Says.bind (.say _) ?_
  rw [M.bind_pure]
  have : (sorted as).flatMap (attrShown val c.mode) =
      (sorted as).flatMap (attrShown val c.mode) := rfl
  have hp := fun kv => (List.perm_insertionSort (fun a b : Str × List Item => a.1 ≤ b.1) as).mem_iff (a := kv)
  have hall : ∀ kv ∈ sorted as, Known c.py (Given O val context) false kv.2 :=
    fun kv hkv => (h kv ((hp kv).1 hkv)).2
  generalize sorted as = l at hall
  clear this
  induction l with
  | nil => exact .pure
  | cons kv l ih =>
    rw [List.map_cons, List.flatMap_cons]
    exact StaticDoc.Says.bind (Says.attrPart call hI c kv.1 kv.2 (hall kv (by simp)))
      (ih fun q hq => hall q (by simp [hq]))

/-! ## Nodes -/

variable (P : Prog Part)

mutual
theorem says_node (hO : Translates O id) (hI : Shows context I) (c : CEnv) (p : Place) (els : MD W Unit) (tag : Str) :
    ∀ x, Ok c.py (Given O val context) c.opts x → (∀ d l, x ≠ .cdata d l) →
      Says I env (node P O call c env p els tag (toD x)) (ser val c.opts c.mode x)
  | .text ts e _, h, _ => by
    rw [toD, node, ser]
    exact Says.text call hO hI c tag e ts h
  | .cdata d l, _, hn => absurd rfl (hn d l)
  | .comment d _, _, _ => by
    rw [toD, node, ser]
    split
    · exact .pure
    · exact .say _
  | .elem t as ln kids, h, _ => by
    obtain ⟨h1, h2, h3, h4, h5, h6⟩ := h
    have h2' := plain_keys fun kv hkv => (h2 kv hkv).1
    rw [toD, node, StaticDoc.auto_plain h4, if_neg Bool.false_ne_true, StaticDoc.dirOf_plain h1]
    dsimp only
    rw [StaticDoc.plainAttrs_plain h4, StaticDoc.keepTag_plain h2', StaticDoc.attr_reserved h2' (by decide +kernel), ser,
      ← List.append_assoc]
    refine StaticDoc.Says.bind (Says.startTag call hI c t as h2 h3) ?_
    rw [if_neg (by simp)]
    cases kids with
    | nil => exact .say _
    | cons k ks =>
      have hks : (toDAll (k :: ks)).isEmpty = false := rfl
      simp only [hks, List.isEmpty_cons, Bool.false_eq_true, if_false]
      refine StaticDoc.Says.bind (.say _) (StaticDoc.Says.bind ?_ ?_)
      · split
        · exact Says.scriptContent call hI c _ _ h6
        · exact says_nodes hO hI c p t _ h6
      · split
        · exact .pure
        · exact .say _

theorem says_nodes (hO : Translates O id) (hI : Shows context I) (c : CEnv) (p : Place) (tag : Str) :
    ∀ xs, OkAll c.py (Given O val context) c.opts xs →
      Says I env (nodes P O call c env p true tag (toDAll xs)) (serAll val c.opts c.mode xs)
  | [], _ => by rw [toDAll, nodes, serAll]; exact .pure
  | x :: xs, h => by
    obtain ⟨h1, h2⟩ := h
    have ih := fun p => says_nodes hO hI c p tag xs h2
    rw [serAll, toDAll]
    cases x with
    | cdata d l => rw [toD]; unfold nodes; rw [ser]; exact StaticDoc.Says.bind (.say _) (ih _)
    | text ts e l =>
      have := says_node hO hI c p (M.pure ()) tag _ h1 (by intros; nofun)
      rw [toD] at this ⊢
      unfold nodes
      exact StaticDoc.Says.bind this (ih _)
    | comment d l =>
      have := says_node hO hI c p (M.pure ()) tag _ h1 (by intros; nofun)
      rw [toD] at this ⊢
      unfold nodes
      exact StaticDoc.Says.bind this (ih _)
    | elem t as ln kids =>
      have := fun els => says_node hO hI c p els tag _ h1 (by intros; nofun)
      rw [toD] at this ⊢
      unfold nodes
      exact StaticDoc.Says.bind (this _) (ih _)
end

end

end Kajiki.FillDoc
