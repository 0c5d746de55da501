import Verif.Spec.WellFormed
import Verif.Spec.Sem
import Verif.Lemmas.Rel
import Verif.Lemmas.XmlCompile
import Verif.Lemmas.Scope
import Verif.Lemmas.Attrs

/-!
# Running trees of well-formed shape
-/

namespace Kajiki.Wf
open Kajiki.Run Kajiki.Spec Kajiki.Spec.WellFormed Kajiki.Spec.Sem Kajiki.Spec.Scope Kajiki.Scope

variable {W α β : Type}

/-! ## Strings -/

theorem Content.nil : Content [] := .chars ⟨by simp, by simp⟩

theorem chars_of_inert {s : Str} (h : Inert s) : Chars s :=
  ⟨fun c hc => ⟨(h.1 c hc).1, (h.1 c hc).2.1⟩, h.2⟩

theorem Attrs.append {ns ms : List Str} {s t : Str} (h : Attrs ns s) (h2 : Attrs ms t) :
    Attrs (ns ++ ms) (s ++ t) := by
  induction h with
  | nil => exact h2
  | cons hn hv _ ih =>
    have := Attrs.cons hn hv ih
    simpa [List.append_assoc] using this

/-! ## Shape -/

/-- What is allowed in trees: guards of an element around its nodes (`G`), callees of `py:call` (`K`),
expressions of `py:attrs` with the names of the other attributes (`D`); and the names that may change (`R`)
and make aliases (`f`). -/
structure Lang where
  G : Str → List Ir → Prop
  K : Str → Prop
  D : Str → List Str → Prop
  R : Str → Prop
  f : Str → Str

/-- Nodes of the value of an attribute. -/
def isValue : Ir → Bool
  | .text _ none _ => true
  | .expr _ _ _ => true
  | _ => false

/-- The attribute nodes of one element, with their names. -/
inductive AttrShape (g : Option Str) : List Str → List Ir → Prop
  | nil : AttrShape g [] []
  | cons {n : Str} {v : List Ir} {l : Nat} {ns : List Str} {as : List Ir} : Name n →
      (∀ x ∈ v, isValue x = true) → AttrShape g ns as →
      AttrShape g (n :: ns) (.attr n "xml".toList g v l :: as)

/-- The node for `py:attrs`, if any. -/
inductive DynShape (D : Str → List Str → Prop) (g : Option Str) (ns : List Str) : List Ir → Prop
  | none : DynShape D g ns []
  | some {c : Str} {l : Nat} : D c ns → DynShape D g ns [.attrs c "xml".toList g l]

/-- Trees that render well-formed content. -/
inductive Shape (L : Lang) : List Ir → Prop
  | nil : Shape L []
  | text {t : Str} {l : Nat} {xs : List Ir} : Content t → Shape L xs → Shape L (.text t none l :: xs)
  | trans {t : Str} {l : Nat} {xs : List Ir} : Chars t → Shape L xs → Shape L (.trans t l :: xs)
  | expr {c : Str} {l : Nat} {xs : List Ir} : Shape L xs → Shape L (.expr c false l :: xs)
  | elem {tag : Str} {g : Option Str} {l1 l2 l3 : Nat} {ns : List Str} {as ds body xs : List Ir} : Name tag →
      (∀ e, activeGuard g = some e → L.G e (as ++ (ds ++ .text ">".toList g l2 :: body))) → AttrShape g ns as →
      DynShape L.D g ns ds → ns.Nodup → Shape L body → Shape L xs →
      Shape L (.text ('<' :: tag) g l1 :: (as ++ (ds ++ .text ">".toList g l2 ::
        (body ++ .text ("</".toList ++ tag ++ ">".toList) g l3 :: xs))))
  | empty {tag e : Str} {g : Option Str} {l1 l2 : Nat} {ns : List Str} {as ds xs : List Ir} : Name tag →
      (∀ e, activeGuard g = some e → L.G e (as ++ ds)) → AttrShape g ns as → DynShape L.D g ns ds → ns.Nodup →
      (e = "/>".toList ∨ e = '>' :: ("</".toList ++ tag ++ ">".toList)) → Shape L xs →
      Shape L (.text ('<' :: tag) g l1 :: (as ++ (ds ++ .text e g l2 :: xs)))
  | python {ls : List Str} {l : Nat} {xs : List Ir} : Shape L xs → Shape L (.python ls l :: xs)
  | imp {n : Str} {a : Option Str} {l : Nat} {xs : List Ir} : Shape L xs → Shape L (.imp n a l :: xs)
  | incl {n : Str} {l : Nat} {xs : List Ir} : Shape L xs → Shape L (.incl n l :: xs)
  | ext {n : Str} {l : Nat} {xs : List Ir} : Shape L xs → Shape L (.ext n l :: xs)
  | pass {l : Nat} {xs : List Ir} : Shape L xs → Shape L (.pass l :: xs)
  | innerDef {d : Str} {b : List Ir} {l : Nat} {xs : List Ir} : Shape L b → Shape L xs →
      Shape L (.innerDef d b l :: xs)
  | call {d c : Str} {b : List Ir} {l : Nat} {xs : List Ir} : L.K c → Shape L b → Shape L xs →
      Shape L (.call d c b l :: xs)
  | forN {d : Str} {b : List Ir} {l : Nat} {xs : List Ir} : Shape L b → Shape L xs →
      Shape L (.forN d b l :: xs)
  | withN {vs : List (Str × Str)} {b : List Ir} {l : Nat} {xs : List Ir} : Shape L b → Shape L xs →
      Shape L (.withN vs b l :: xs)
  | switchN {e : Str} {b : List Ir} {l : Nat} {xs : List Ir} : Shape L b → Shape L xs →
      Shape L (.switchN e b l :: xs)
  | caseN {e : Str} {b : List Ir} {l : Nat} {xs : List Ir} : Shape L b → Shape L xs →
      Shape L (.caseN e b l :: xs)
  | ifN {e : Str} {b : List Ir} {l : Nat} {xs : List Ir} : Shape L b → Shape L xs →
      Shape L (.ifN e b l :: xs)
  | elseN {b : List Ir} {l : Nat} {xs : List Ir} : Shape L b → Shape L xs →
      Shape L (.elseN b l :: xs)

/-! ## Stores -/

section
variable (L : Lang)

/-- Function bodies whose imports have reserved names. -/
abbrev Lang.A : List Ir → Prop := AliasesIn L.R L.f

/-- A function made of trees of the right shape. -/
def FnOk (f : Fn (List Ir)) : Prop := ∀ d b, f.body = .code d b → Shape L b

/-- An instance with harmless values. -/
def InstOk (i : Inst) : Prop := TameDict i.context ∧ TameDict i.globals ∧ TameDict i.attrs

/-- A store with harmless values and functions. -/
structure StoreOk (s : Store (List Ir) W) : Prop where
  insts : ∀ i ∈ s.insts, InstOk i
  frames : ∀ f ∈ s.frames, TameDict f.vars
  fns : ∀ f ∈ s.fns, FnOk L f

/-- If the computation succeeds, the store stays harmless, and value and output satisfy `Q`. -/
def Tri (Q : α → Str → Prop) (m : MT W α) : Prop :=
  ∀ s, StoreOk L s → ∀ a, (m s).val = .ok a → StoreOk L (m s).st ∧ Q a (m s).out.txt

/-- Classes made of trees of the right shape. -/
structure ProgOk (P : Prog (List Ir)) : Prop where
  methods : ∀ c ∈ P.classes, ∀ m ∈ c.methods, Shape L m.2.2
  base : ∀ c ∈ P.classes, TameDict c.baseGlobals
  aliases : P.aliasFor = L.f
  safe : ProgSafe L.R L.A P

end

variable {L : Lang}

theorem Tri.mono {Q R : α → Str → Prop} {m : MT W α} (h : Tri L Q m) (hq : ∀ a o, Q a o → R a o) :
    Tri L R m := fun s hs a ha => ⟨(h s hs a ha).1, hq _ _ (h s hs a ha).2⟩

theorem Tri.bind {Q : α → Str → Prop} {R : β → Str → Prop} {m : MT W α} {f : α → MT W β} (h : Tri L Q m)
    (hf : ∀ a o, Q a o → Tri L (fun b o' => R b (o ++ o')) (f a)) : Tri L R (M.bind m f) := by
  intro s hs b hb
  unfold M.bind at hb ⊢
  have h1 := h s hs
  cases hm : m s with
  | mk o st v =>
    rw [hm] at h1 hb
    cases v with
    | error e => cases hb
    | ok a =>
      obtain ⟨h2, h3⟩ := h1 a rfl
      dsimp only at hb h2 h3 ⊢
      exact hf a o.txt h3 st h2 b hb

theorem Tri.pure {Q : α → Str → Prop} {a : α} (h : Q a []) : Tri L Q (M.pure a : MT W α) := by
  intro s hs b hb
  cases hb
  exact ⟨hs, h⟩

theorem Tri.throw {Q : α → Str → Prop} (e : Err) : Tri L Q (M.throw e : MT W α) := by
  intro s hs b hb; cases hb

theorem Tri.tell {Q : Unit → Str → Prop} {o : Out} (h : Q () o.txt) : Tri L Q (M.tell o : MT W Unit) := by
  intro s hs b hb
  cases hb
  exact ⟨hs, h⟩

theorem Tri.get {R : β → Str → Prop} {f : Store (List Ir) W → MT W β}
    (h : ∀ s, StoreOk L s → Tri L R (f s)) : Tri L R (M.bind M.get f) := by
  intro s hs b hb
  have := h s hs s hs b (by simpa [M.bind, M.get] using hb)
  simpa [M.bind, M.get] using this

theorem Tri.ofOption {Q : α → Str → Prop} {e : Err} {x : Option α} (h : ∀ a, x = some a → Q a []) :
    Tri L Q (M.ofOption e x : MT W α) := by
  cases x with
  | none => exact .throw _
  | some a => exact .pure (h a rfl)

/-- No output, and a value satisfying `V`. -/
abbrev Silent (L : Lang) (V : α → Prop) (m : MT W α) : Prop := Tri L (fun a o => V a ∧ o = []) m

theorem Silent.bind {V : α → Prop} {R : β → Str → Prop} {m : MT W α} {f : α → MT W β} (h : Silent L V m)
    (hf : ∀ a, V a → Tri L R (f a)) : Tri L R (M.bind m f) :=
  Tri.bind h fun a o ho => by
    obtain ⟨hv, rfl⟩ := ho
    simpa using hf a hv

theorem modify_silent {f : Store (List Ir) W → Store (List Ir) W}
    (h : ∀ s, StoreOk L s → StoreOk L (f s)) : Silent L (fun _ => True) (M.modify f) := by
  intro s hs b hb
  exact ⟨h s hs, trivial, rfl⟩

theorem scopes_tame {fs : List Frame} (h : ∀ f ∈ fs, TameDict f.vars) (n : Nat) (i : Option Nat) :
    ∀ d ∈ scopes fs n i, TameDict d := by
  induction n generalizing i with
  | zero => simp [scopes]
  | succ n ih =>
    cases i with
    | none => simp [scopes]
    | some i =>
      simp only [scopes]
      split
      · simp
      · next f hf =>
        intro d hd
        rcases List.mem_cons.1 hd with rfl | hd
        · exact h f (List.mem_of_getElem? hf)
        · exact ih _ d hd

theorem StoreOk.view {s : Store (List Ir) W} (h : StoreOk L s) (env : Env) : TameView (view env s) :=
  ⟨scopes_tame h.frames _ _, h.insts⟩

theorem ask_silent {V : α → Prop} (env : Env) (f : View → W → Except Err α × W)
    (h : ∀ v w x w', TameView v → f v w = (.ok x, w') → V x) : Silent L V (ask env f : MT W α) := by
  intro s hs b hb
  simp only [ask] at hb ⊢
  refine ⟨⟨hs.insts, hs.frames, hs.fns⟩, ?_, rfl⟩
  exact h _ _ b _ (hs.view env) (Prod.ext hb rfl)

theorem tameDict_set {d : Dict Val} (h : TameDict d) (k : Str) {v : Val} (hv : Tame v) :
    TameDict (d.set k v) := by
  intro kv hkv
  rcases Dict.mem_set hkv with rfl | h1
  · exact hv
  · exact h kv h1

theorem tameDict_update {d e : Dict Val} (h : TameDict d) (h2 : TameDict e) : TameDict (d.update e) := by
  unfold Dict.update
  induction e generalizing d with
  | nil => exact h
  | cons kv e ih =>
    rw [List.foldl_cons]
    exact ih (tameDict_set h _ (h2 kv List.mem_cons_self)) fun x hx => h2 x (List.mem_cons_of_mem _ hx)

theorem tameDict_get {d : Dict Val} (h : TameDict d) {k : Str} {v : Val} (hv : d.get k = some v) : Tame v :=
  h (k, v) (Dict.get_eq_some_mem hv)

theorem tameDict_getD {d : Dict Val} (h : TameDict d) {k : Str} {v : Val} (hv : Tame v) :
    Tame ((d.get k).getD v) := by
  cases hd : d.get k with
  | none => exact hv
  | some x => exact tameDict_get h hd

theorem tameDict_filter {d : Dict Val} (h : TameDict d) (p : Str × Val → Bool) : TameDict (d.filter p) :=
  fun kv hkv => h kv (List.mem_filter.1 hkv).1

variable {O : Oracle W}

theorem evalM_silent (hO : TameOracle O) (env : Env) (e : Str) : Silent L Tame (evalM O env e : MT W Val) :=
  ask_silent env _ (hO.eval e)

theorem modFrame_silent (env : Env) {f : Frame → Frame} (h : ∀ x, TameDict x.vars → TameDict (f x).vars) :
    Silent L (fun _ => True) (modFrame env f : MT W Unit) := by
  refine modify_silent fun s hs => ⟨hs.insts, ?_, hs.fns⟩
  intro x hx
  rcases mem_modify hx with h1 | ⟨y, hy, rfl⟩
  · exact hs.frames x h1
  · exact h y (hs.frames y hy)

theorem setVars_silent (env : Env) {b : Dict Val} (h : TameDict b) :
    Silent L (fun _ => True) (setVars env b : MT W Unit) :=
  modFrame_silent env fun _ hx => tameDict_update hx h

theorem newFrame_silent {b : Dict Val} (h : TameDict b) (up : Option Nat) :
    Silent L (fun _ => True) (newFrame b up : MT W Nat) := by
  intro s hs a ha
  refine ⟨⟨hs.insts, ?_, hs.fns⟩, trivial, rfl⟩
  intro x hx
  simp only [newFrame, List.mem_append, List.mem_singleton] at hx
  rcases hx with hx | rfl
  · exact hs.frames x hx
  · exact h

theorem newFn_silent {f : Fn (List Ir)} (h : FnOk L f) : Silent L (fun _ => True) (newFn f : MT W Nat) := by
  intro s hs a ha
  refine ⟨⟨hs.insts, hs.frames, ?_⟩, trivial, rfl⟩
  intro x hx
  simp only [newFn, List.mem_append, List.mem_singleton] at hx
  rcases hx with hx | rfl
  · exact hs.fns x hx
  · exact h

theorem start_silent (id : Nat) : Silent L (fun _ => True) (start id : MT W Bool) := by
  intro s hs a ha
  simp only [start] at ha ⊢
  split
  · exact ⟨hs, trivial, rfl⟩
  · exact ⟨⟨hs.insts, hs.frames, hs.fns⟩, trivial, rfl⟩

theorem getInst_silent (i : Nat) : Silent L InstOk (getInst i : MT W Inst) := by
  intro s hs a ha
  unfold getInst at ha ⊢
  split at ha
  · next x hx => cases ha; exact ⟨hs, hs.insts _ (List.mem_of_getElem? hx), rfl⟩
  · cases ha

theorem modInst_silent (i : Nat) {f : Inst → Inst} (h : ∀ x, InstOk x → InstOk (f x)) :
    Silent L (fun _ => True) (modInst i f : MT W Unit) := by
  refine modify_silent fun s hs => ⟨?_, hs.frames, hs.fns⟩
  intro x hx
  rcases mem_modify hx with h1 | ⟨y, hy, rfl⟩
  · exact hs.insts x h1
  · exact h y (hs.insts y hy)

theorem methodDict_tame {C : Type} (n : Nat) (ms : List (Str × Str × C)) : TameDict (methodDict n ms) := by
  induction ms generalizing n with
  | nil => simp [methodDict, TameDict]
  | cons m ms ih =>
    obtain ⟨k, m⟩ := m
    intro kv hkv
    rcases List.mem_cons.1 hkv with rfl | h
    · exact .fn _
    · exact ih _ kv h

theorem trampDict_tame (n : Nat) (ks : List Str) : TameDict (trampDict n ks) := by
  induction ks generalizing n with
  | nil => simp [trampDict, TameDict]
  | cons k ks ih =>
    intro kv hkv
    rcases List.mem_cons.1 hkv with rfl | h
    · exact .fn _
    · exact ih _ kv h

theorem builtins_tame : TameDict builtins := by
  intro kv hkv
  simp only [builtins, List.mem_cons, List.not_mem_nil, or_false] at hkv
  rcases hkv with rfl | rfl | rfl | rfl | rfl | rfl <;> exact .obj _ _ _

theorem newGlobals_tame (i : Nat) {base ms ctx : Dict Val} (hb : TameDict base) (hm : TameDict ms)
    (hc : TameDict ctx) : TameDict (newGlobals i base ms ctx) := by
  have h0 : TameDict [("local".toList, Val.inst i), ("self".toList, .inst i)] := by
    intro kv hkv
    simp only [List.mem_cons, List.not_mem_nil, or_false] at hkv
    rcases hkv with rfl | rfl <;> exact .inst _
  have h1 := tameDict_update (tameDict_update (tameDict_update (tameDict_update h0 builtins_tame) hb) hm) hc
  exact tameDict_set (tameDict_set h1 _ (tameDict_getD h1 .none)) _ (.meth _ _)

variable {P : Prog (List Ir)}

theorem newInst_silent (hP : ProgOk L P) (c : Nat) {ctx : Dict Val} (hc : TameDict ctx) :
    Silent L (fun _ => True) (newInst P c ctx : MT W Nat) := by
  intro s hs a ha
  unfold newInst at ha ⊢
  split at ha
  · cases ha
  · next cls hcls =>
    have hmem := List.mem_of_getElem? hcls
    refine ⟨⟨?_, hs.frames, ?_⟩, trivial, rfl⟩
    · intro x hx
      simp only [List.mem_append, List.mem_singleton] at hx
      rcases hx with hx | rfl
      · exact hs.insts x hx
      · exact ⟨hc, newGlobals_tame _ (hP.base cls hmem) (methodDict_tame _ _) hc, methodDict_tame _ _⟩
    · intro x hx
      simp only [List.mem_append, methodFns, List.mem_map] at hx
      rcases hx with hx | ⟨m, hm, rfl⟩
      · exact hs.fns x hx
      · intro d b hb
        cases hb
        exact hP.methods cls hmem m hm

theorem extend_silent (hP : ProgOk L P) (j : Nat) (n : Str) :
    Silent L (fun _ => True) (extend P j n : MT W Nat) := by
  unfold extend
  refine Silent.bind (V := fun _ => True) (.ofOption fun _ _ => ⟨trivial, rfl⟩) fun c _ => ?_
  refine Silent.bind (getInst_silent j) fun me hme => ?_
  refine Silent.bind (newInst_silent hP c hme.1) fun p _ => ?_
  refine Silent.bind (getInst_silent p) fun pi hpi => ?_
  refine Tri.get fun s hs => ?_
  have hpg : TameDict (overrides (s.fns.map (·.tpl)) me.globals pi.globals) :=
    tameDict_update hpi.2.1 (tameDict_filter hme.2.1 _)
  have hmy : TameDict (inherited (s.fns.map (·.tpl)) (overrides (s.fns.map (·.tpl)) me.globals pi.globals)
      me.globals) := tameDict_update hme.2.1 (tameDict_filter hpg _)
  refine Silent.bind (V := fun _ => True) (modify_silent fun s hs => ⟨hs.insts, hs.frames, ?_⟩) fun _ _ => ?_
  · intro x hx
    simp only [List.mem_append, List.mem_map] at hx
    rcases hx with hx | ⟨k, _, rfl⟩
    · exact hs.fns x hx
    · intro d b hb; cases hb
  refine Silent.bind (modInst_silent p fun x hx => ⟨hx.1, ?_, hx.2.2⟩) fun _ _ => ?_
  · exact tameDict_set (tameDict_set (tameDict_set hpg _ (.inst _)) _ (.inst _)) _ (tameDict_getD hmy .none)
  refine Silent.bind (modInst_silent j fun x hx => ⟨hx.1, ?_, ?_⟩) fun _ _ => ?_
  · exact tameDict_set (tameDict_set hmy _ (.inst _)) _ (.inst _)
  · exact tameDict_update hme.2.2 (trampDict_tame _ _)
  exact .pure ⟨trivial, rfl⟩

theorem importT_silent (hP : ProgOk L P) (j : Nat) (n : Str) (a : Option Str) :
    Silent L (fun _ => True) (importT P j n a : MT W Nat) := by
  unfold importT
  refine Silent.bind (V := fun _ => True) (.ofOption fun _ _ => ⟨trivial, rfl⟩) fun c _ => ?_
  refine Silent.bind (getInst_silent j) fun me hme => ?_
  refine Silent.bind (newInst_silent hP c hme.2.1) fun p _ => ?_
  refine Silent.bind (modInst_silent j fun x hx => ⟨hx.1, tameDict_set hx.2.1 _ (.inst _), hx.2.2⟩) fun _ _ => ?_
  exact .pure ⟨trivial, rfl⟩

theorem kjInst_silent (env : Env) : Silent L (fun _ => True) (kjInst env : MT W Nat) :=
  .ofOption fun _ _ => ⟨trivial, rfl⟩

theorem globalInst_silent (env : Env) (k : Str) : Silent L (fun _ => True) (globalInst env k : MT W Nat) := by
  unfold globalInst
  refine Silent.bind (getInst_silent _) fun i _ => ?_
  split
  · exact .pure ⟨trivial, rfl⟩
  · exact .throw _
  · exact .throw _

theorem importM_silent (hP : ProgOk L P) (env : Env) (n : Str) (a : Option Str) :
    Silent L (fun _ => True) (importM P env n a : MT W Nat) := by
  unfold importM
  refine Silent.bind (kjInst_silent env) fun _ _ => ?_
  refine Silent.bind (globalInst_silent env _) fun j _ => importT_silent hP j n a

theorem extendM_silent (hP : ProgOk L P) (env : Env) (n : Str) :
    Silent L (fun _ => True) (extendM P env n : MT W Nat) := by
  unfold extendM
  exact Silent.bind (kjInst_silent env) fun j _ => extend_silent hP j n

theorem attrFn_silent (i : Nat) (k : Str) : Silent L (fun _ => True) (attrFn i k : MT W Nat) := by
  unfold attrFn
  refine Silent.bind (getInst_silent _) fun i _ => ?_
  split
  · exact .pure ⟨trivial, rfl⟩
  · exact .throw _

theorem gettextM_silent (hO : TameOracle O) (env : Env) {t : Str} (ht : Chars t) :
    Silent L Raw (gettextM O env t : MT W Val) := by
  unfold gettextM
  refine Silent.bind (kjInst_silent env) fun _ _ => ?_
  refine Silent.bind (getInst_silent _) fun i _ => ?_
  refine Silent.bind (V := fun _ => True) (.ofOption fun _ _ => ⟨trivial, rfl⟩) fun g _ => ?_
  exact ask_silent env _ fun v w x w' _ h => hO.gettext g t w x w' ht h

theorem fdefM_silent (env : Env) (d : Str) {b : List Ir} (hb : Shape L b) :
    Silent L (fun _ => True) (fdefM env d b : MT W Unit) := by
  unfold fdefM
  refine Silent.bind (newFn_silent ?_) fun f _ => setVars_silent env ?_
  · intro d' b' h; cases h; exact hb
  · intro kv hkv
    simp only [List.mem_singleton] at hkv
    subst hkv
    exact .fn _

/-! ## Computations that keep variables -/

/-- Before: a store with harmless values, in which `I` holds.  If the computation succeeds, the store is
still harmless, all variables but those in `loc` are as before, and value and output satisfy `Q`. -/
def Tr (L : Lang) (loc : Nat → Str → Prop) (I : Store (List Ir) W → Prop) (Q : α → Str → Prop) (m : MT W α) : Prop :=
  ∀ s, StoreOk L s → Safe L.R L.A s → I s → ∀ a, (m s).val = .ok a →
    StoreOk L (m s).st ∧ Safe L.R L.A (m s).st ∧ Keep L.R loc s (m s).st ∧ Q a (m s).out.txt

/-- No condition on stores. -/
def anyStore : Store (List Ir) W → Prop := fun _ => True

/-- What holds as long as no variable changes. -/
class Quiet (L : Lang) (I : Store (List Ir) W → Prop) : Prop where
  keep : ∀ s t, Safe L.R L.A s → Safe L.R L.A t → I s → Keep L.R noVar s t → I t

/-- What holds whatever variables change. -/
class Firm (L : Lang) (I : Store (List Ir) W → Prop) : Prop where
  keep : ∀ s t loc, I s → Keep L.R loc s t → I t

instance : Firm L (anyStore : Store (List Ir) W → Prop) := ⟨fun _ _ _ _ _ => trivial⟩

instance (env : Env) : Firm L (EnvOk env : Store (List Ir) W → Prop) := ⟨fun _ _ _ h hk => h.keep hk⟩

instance (I : Store (List Ir) W → Prop) [Firm L I] : Quiet L I := ⟨fun s t _ _ h hk => Firm.keep (L := L) s t _ h hk⟩

variable {loc : Nat → Str → Prop} {I : Store (List Ir) W → Prop}

theorem Tr.mono {Q R : α → Str → Prop} {m : MT W α} (h : Tr L loc I Q m) (hq : ∀ a o, Q a o → R a o) :
    Tr L loc I R m := fun s hs hf hi a ha => by
  obtain ⟨h1, h2, h3, h4⟩ := h s hs hf hi a ha
  exact ⟨h1, h2, h3, hq _ _ h4⟩

/-- A computation that changes no variable, anywhere. -/
theorem Tr.lift {Q : α → Str → Prop} {m : MT W α} (h : Tr L noVar anyStore Q m) : Tr L loc I Q m :=
  fun s hs hf _ a ha => by
    obtain ⟨h1, h2, h3, h4⟩ := h s hs hf trivial a ha
    exact ⟨h1, h2, h3.mono fun _ _ _ _ h => h.elim, h4⟩

theorem Tr.wide {Q : α → Str → Prop} {m : MT W α} {loc' : Nat → Str → Prop} {J : Store (List Ir) W → Prop}
    (h : Tr L loc I Q m) (hl : ∀ i n, loc i n → loc' i n) (hi : ∀ s, J s → I s) : Tr L loc' J Q m :=
  fun s hs hf hj a ha => by
    obtain ⟨h1, h2, h3, h4⟩ := h s hs hf (hi s hj) a ha
    exact ⟨h1, h2, h3.mono fun i _ n _ => hl i n, h4⟩

/-- Another way to know what is kept. -/
theorem Tr.keeping {Q : α → Str → Prop} {V : α → Prop} {m : MT W α} {loc' : Nat → Str → Prop}
    (h : Tr L loc I Q m) (hk : Keeps L.R L.A loc' V m) : Tr L loc' I Q m :=
  fun s hs hf hi a ha => by
    obtain ⟨h1, h2, _, h4⟩ := h s hs hf hi a ha
    exact ⟨h1, h2, (hk s hf).2.1, h4⟩

theorem Tr.of {Q : α → Str → Prop} {V : α → Prop} {m : MT W α} (h : Tri L Q m) (hk : Keeps L.R L.A loc V m) :
    Tr L loc I Q m :=
  fun s hs hf _ a ha => ⟨(h s hs a ha).1, (hk s hf).1, (hk s hf).2.1, (h s hs a ha).2⟩

theorem Tr.seq {Q : α → Str → Prop} {R : β → Str → Prop} {m : MT W α} {f : α → MT W β}
    {l1 l2 : Nat → Str → Prop} {J : Store (List Ir) W → Prop} (h : Tr L l1 I Q m)
    (hf : ∀ a o, Q a o → Tr L l2 J (fun b o' => R b (o ++ o')) (f a))
    (hI : ∀ s t, Safe L.R L.A s → Safe L.R L.A t → I s → Keep L.R l1 s t → J t)
    (h1 : ∀ i n, l1 i n → loc i n) (h2 : ∀ i n, l2 i n → loc i n) : Tr L loc I R (M.bind m f) := by
  intro s hs hsafe hi b hb
  unfold M.bind at hb ⊢
  have hm1 := h s hs hsafe hi
  cases hm : m s with
  | mk o st v =>
    rw [hm] at hm1 hb
    cases v with
    | error e => cases hb
    | ok a =>
      obtain ⟨e1, e2, e3, e4⟩ := hm1 a rfl
      dsimp only at hb e1 e2 e3 e4 ⊢
      obtain ⟨g1, g2, g3, g4⟩ := hf a o.txt e4 st e1 e2 (hI s st hsafe e2 hi e3) b hb
      exact ⟨g1, g2, (e3.mono fun i _ n _ => h1 i n).trans (g3.mono fun i _ n _ => h2 i n), g4⟩

theorem Tr.bind [Firm L I] {Q : α → Str → Prop} {R : β → Str → Prop} {m : MT W α} {f : α → MT W β}
    (h : Tr L loc I Q m) (hf : ∀ a o, Q a o → Tr L loc I (fun b o' => R b (o ++ o')) (f a)) :
    Tr L loc I R (M.bind m f) :=
  h.seq hf (fun s t _ _ hi hk => Firm.keep (L := L) s t _ hi hk) (fun _ _ h => h) fun _ _ h => h

theorem Tr.qbind [Quiet L I] {Q : α → Str → Prop} {R : β → Str → Prop} {m : MT W α} {f : α → MT W β}
    (h : Tr L noVar I Q m) (hf : ∀ a o, Q a o → Tr L loc I (fun b o' => R b (o ++ o')) (f a)) :
    Tr L loc I R (M.bind m f) :=
  h.seq hf (fun s t h1 h2 hi hk => Quiet.keep (L := L) s t h1 h2 hi hk) (fun _ _ h => h.elim) fun _ _ h => h

theorem Tr.pure {Q : α → Str → Prop} {a : α} (h : Q a []) : Tr L loc I Q (M.pure a : MT W α) := by
  intro s hs hf _ b hb
  cases hb
  exact ⟨hs, hf, .refl _, h⟩

theorem Tr.throw {Q : α → Str → Prop} (e : Err) : Tr L loc I Q (M.throw e : MT W α) := by
  intro s hs _ _ b hb; cases hb

theorem Tr.tell {Q : Unit → Str → Prop} {o : Out} (h : Q () o.txt) : Tr L loc I Q (M.tell o : MT W Unit) := by
  intro s hs hf _ b hb
  cases hb
  exact ⟨hs, hf, .refl _, h⟩

theorem Tr.get {R : β → Str → Prop} {f : Store (List Ir) W → MT W β}
    (h : ∀ s, StoreOk L s → Safe L.R L.A s → I s → Tr L loc I R (f s)) : Tr L loc I R (M.bind M.get f) := by
  intro s hs hf hi b hb
  have := h s hs hf hi s hs hf hi b (by simpa [M.bind, M.get] using hb)
  simpa [M.bind, M.get] using this

/-- No output, no change of variables, and a value satisfying `V`. -/
abbrev Still (L : Lang) (V : α → Prop) (m : MT W α) : Prop := Tr L noVar anyStore (fun a o => V a ∧ o = []) m

theorem Silent.still {V : α → Prop} {U : α → Prop} {m : MT W α} (h : Silent L V m)
    (hk : Keeps L.R L.A noVar U m) : Still L V m := Tr.of h hk

theorem Still.bind [Quiet L I] {V : α → Prop} {R : β → Str → Prop} {m : MT W α} {f : α → MT W β}
    (h : Still L V m) (hf : ∀ a, V a → Tr L loc I R (f a)) : Tr L loc I R (M.bind m f) :=
  Tr.qbind h.lift fun a o ho => by
    obtain ⟨hv, rfl⟩ := ho
    simpa using hf a hv

theorem Still.ofOption {V : α → Prop} {e : Err} {x : Option α} (h : ∀ a, x = some a → V a) :
    Still L V (M.ofOption e x : MT W α) := by
  cases x with
  | none => exact .throw _
  | some a => exact .pure ⟨h a rfl, rfl⟩

theorem ask_still {V : α → Prop} (env : Env) (f : View → W → Except Err α × W)
    (h : ∀ v w x w', TameView v → f v w = (.ok x, w') → V x) : Still L V (ask env f : MT W α) :=
  (ask_silent env f h).still (ask_keeps env f)

theorem evalM_still (hO : TameOracle O) (env : Env) (e : Str) : Still L Tame (evalM O env e : MT W Val) :=
  (evalM_silent hO env e).still (evalM_keeps O env e)

theorem getInst_still (i : Nat) : Still L InstOk (getInst i : MT W Inst) :=
  (getInst_silent i).still (getInst_keeps i)

theorem kjInst_still (env : Env) : Still L (fun _ => True) (kjInst env : MT W Nat) :=
  (kjInst_silent env).still (kjInst_keeps env)

theorem importM_still (hP : ProgOk L P) (env : Env) (n : Str) (a : Option Str) (ha : L.R (a.getD (L.f n))) :
    Still L (fun _ => True) (importM P env n a : MT W Nat) :=
  (importM_silent hP env n a).still (importM_keeps hP.safe env n a (by rw [hP.aliases]; exact ha))

theorem extendM_still (hP : ProgOk L P) (env : Env) (n : Str) :
    Still L (fun _ => True) (extendM P env n : MT W Nat) :=
  (extendM_silent hP env n).still (extendM_keeps hP.safe env n)

theorem attrFn_still (i : Nat) (k : Str) : Still L (fun _ => True) (attrFn i k : MT W Nat) :=
  (attrFn_silent i k).still (attrFn_keeps i k)

theorem gettextM_still (hO : TameOracle O) (env : Env) {t : Str} (ht : Chars t) :
    Still L Raw (gettextM O env t : MT W Val) := (gettextM_silent hO env ht).still (gettextM_keeps O env t)

/-! ## Output -/

/-- The computation renders content, and may change variables of the current scope. -/
abbrev Renders (L : Lang) (env : Env) (m : MT W Unit) : Prop :=
  Tr L (here env []) (EnvOk env) (fun _ o => Content o) m

/-- The computation renders content and changes no variables. -/
abbrev Shows (L : Lang) (m : MT W Unit) : Prop := Tr L noVar anyStore (fun _ o => Content o) m

/-- The computation renders something and changes no variables. -/
abbrev Runs (L : Lang) (m : MT W Unit) : Prop := Tr L noVar anyStore (fun _ _ => True) m

theorem Tr.then [Firm L I] {m n : MT W Unit} (h : Tr L loc I (fun _ o => Content o) m)
    (h2 : Tr L loc I (fun _ o => Content o) n) : Tr L loc I (fun _ o => Content o) (M.bind m fun _ => n) :=
  Tr.bind h fun _ _ ho => h2.mono fun _ _ ho' => .append ho ho'

theorem Runs.bind {m n : MT W Unit} (h : Runs L m) (h2 : Runs L n) : Runs L (M.bind m fun _ => n) :=
  Tr.bind h fun _ _ _ => h2.mono fun _ _ _ => trivial

theorem Shows.runs {m : MT W Unit} (h : Shows L m) : Runs L m := h.mono fun _ _ _ => trivial

theorem Tr.silent {V : Unit → Prop} {m : MT W Unit} (h : Tr L loc I (fun a o => V a ∧ o = []) m) :
    Tr L loc I (fun _ o => Content o) m :=
  h.mono fun _ _ ho => by rw [ho.2]; exact Content.nil

theorem Tr.nothing : Tr L loc I (fun _ o => Content o) (M.pure () : MT W Unit) := .pure Content.nil

theorem Tr.each [Firm L I] {γ : Type} {f : γ → MT W Unit} {l : List γ}
    (h : ∀ a ∈ l, Tr L loc I (fun _ o => Content o) (f a)) : Tr L loc I (fun _ o => Content o) (M.each f l) := by
  induction l with
  | nil => exact .nothing
  | cons a l ih =>
    exact (h a List.mem_cons_self).then (ih fun x hx => h x (List.mem_cons_of_mem _ hx))

theorem setVars_tr (env : Env) {b : Dict Val} (h : TameDict b) :
    Tr L (here env []) I (fun _ o => True ∧ o = []) (setVars env b : MT W Unit) :=
  Tr.of (setVars_silent env h) (setVars_all env b)

theorem fdefM_tr (env : Env) (d : Str) {b : List Ir} (hb : Shape L b) (ha : L.A b) :
    Tr L (here env []) I (fun _ o => True ∧ o = []) (fdefM env d b : MT W Unit) :=
  Tr.of (fdefM_silent env d hb) (fdefM_keeps env ha (by simp))

/-- A way to call functions that renders content and changes no variables. -/
def CallOk (L : Lang) (call : Mode → Nat → List Val → MT W Unit) : Prop :=
  ∀ mode f as, (∀ a ∈ as, Tame a) → Shows L (call mode f as)

theorem splice_shows {m : Mode → MT W Unit} (h : ∀ mode, Shows L (m mode)) (mode : Mode) :
    Shows L (splice mode m) := by
  cases mode
  · exact h _
  · exact (h _).then (.tell Content.nil)
  · exact h _

theorem chunk_shows (mode : Mode) {v : Val} (h : Content (toStr v)) : Shows L (chunk mode v : MT W Unit) := by
  unfold chunk
  split
  · exact .tell h
  · exact .throw _
  · exact .tell h

theorem chunk_runs (mode : Mode) (v : Val) : Runs L (chunk mode v : MT W Unit) := by
  unfold chunk
  split
  · exact .tell trivial
  · exact .throw _
  · exact .tell trivial

theorem start_still (id : Nat) : Still L (fun _ => True) (start id : MT W Bool) :=
  (start_silent id).still (start_keeps id)

variable {call : Mode → Nat → List Val → MT W Unit}

mutual
theorem emit_shows (hc : CallOk L call) (mode : Mode) (v : Val) (h : Raw v) :
    Shows L (emit call mode v) := by
  cases v with
  | none => simp only [emit]; exact .nothing
  | flatItems id items =>
    have hi : ∀ v ∈ items, Raw v := by
      cases h with
      | flatItems h => exact h
      | other h => cases h
    simp only [emit]
    refine splice_shows (fun mode => Still.bind (start_still id) fun b _ => ?_) mode
    cases b
    · exact Tr.nothing
    · exact emitList_shows hc mode items hi
  | flatCall id f as =>
    have hi : ∀ v ∈ as, Tame v := by
      cases h with
      | flatCall h => exact h
      | other h => cases h
    simp only [emit]
    refine splice_shows (fun mode => Still.bind (start_still id) fun b _ => ?_) mode
    cases b
    · exact Tr.nothing
    · exact hc mode f as hi
  | _ =>
    simp only [emit]
    cases h with
    | other _ _ h => exact chunk_shows _ h

theorem emitList_shows (hc : CallOk L call) (mode : Mode) (vs : List Val) (h : ∀ v ∈ vs, Raw v) :
    Shows L (emitList call mode vs) := by
  cases vs with
  | nil => simp only [emitList]; exact .nothing
  | cons v vs =>
    simp only [emitList]
    exact (emit_shows hc mode v (h v List.mem_cons_self)).then
      (emitList_shows hc mode vs fun x hx => h x (List.mem_cons_of_mem _ hx))
end

theorem raw_escape {v : Val} (h : Tame v) : Raw (escape v) := by
  cases h with
  | none => exact .none
  | flatItems h => exact .flatItems h
  | flatCall h => exact .flatCall h
  | html h => exact .other rfl (by simp [escape]) h
  | _ => exact .other rfl (by simp [escape]) (.chars (chars_of_inert (Props.inert_escapeStr _)))

theorem emit_runs (hc : CallOk L call) (mode : Mode) {v : Val} (h : Tame v) :
    Runs L (emit call mode v) := by
  cases h with
  | none => exact (emit_shows hc mode _ .none).runs
  | flatItems h => exact (emit_shows hc mode _ (.flatItems h)).runs
  | flatCall h => exact (emit_shows hc mode _ (.flatCall h)).runs
  | _ => simp only [emit]; exact chunk_runs _ _

theorem emitMain_shows (hc : CallOk L call) (mode : Mode) (i : Nat) :
    Shows L (emitMain call mode i) := by
  unfold emitMain
  exact Still.bind (attrFn_still i _) fun f _ =>
    splice_shows (fun mode => hc mode f [] (by simp)) mode

/-! ## Lists of nodes -/

section

/-- Nodes that no `py:else` starts. -/
def noElse : List Ir → Bool
  | .elseN _ _ :: _ => false
  | .python [] _ :: _ => false
  | _ => true

theorem semElse_noElse (env : Env) {xs : List Ir} (h : noElse xs = true) :
    semElse P O call env xs = M.pure () := by
  cases xs with
  | nil => simp only [semElse]
  | cons x xs =>
    cases x with
    | elseN => cases h
    | python ls l =>
      cases ls with
      | nil => cases h
      | cons => simp only [semElse]
    | _ => simp only [semElse]

theorem semElse_append (env : Env) (xs ys : List Ir) (h : noElse ys = true) :
    semElse P O call env (xs ++ ys) = semElse P O call env xs := by
  induction xs with
  | nil => rw [List.nil_append, semElse_noElse env h]; simp only [semElse]
  | cons x xs ih =>
    rw [List.cons_append]
    cases x with
    | python ls l =>
      cases ls with
      | nil => simp only [semElse]; exact ih
      | cons => simp only [semElse]
    | _ => simp only [semElse]

theorem semList_append (env : Env) (xs ys : List Ir) (h : noElse ys = true) :
    semList P O call env (xs ++ ys) = M.bind (semList P O call env xs) fun _ => semList P O call env ys := by
  induction xs with
  | nil => rw [List.nil_append]; simp only [semList]; rw [M.pure_bind]
  | cons x xs ih =>
    rw [List.cons_append]
    simp only [semList]
    rw [semElse_append env xs ys h, ih, M.bind_assoc]

end

/-! ## Nodes -/

section
variable (hO : TameOracle O) (hK : ∀ e, L.K e → RawExpr O e) (hD : ∀ e ns, L.D e ns → AttrsExpr O e ns)
variable (hG : ∀ e mid, L.G e mid → ∃ ns, Reads O e ns ∧ NoBinds O ns mid ∧ ∀ n ∈ ns, ¬ L.R n)
variable (hP : ProgOk L P) (hc : CallOk L call) (hck : CallKeeps L.R L.A call)
include hO

theorem test_still (env : Env) (e : Str) : Still L (fun _ => True) (test O env e : MT W Bool) := by
  unfold test
  exact Still.bind (evalM_still hO env e) fun v _ => .pure ⟨trivial, rfl⟩

include hc

/-- The value of an attribute. -/
theorem value_runs (env : Env) (v : List Ir) (h : ∀ x ∈ v, isValue x = true) :
    Runs L (semList P O call env v) := by
  have hels : ∀ v : List Ir, (∀ x ∈ v, isValue x = true) → noElse v = true := by
    intro v hv
    cases v with
    | nil => rfl
    | cons x xs =>
      have := hv x List.mem_cons_self
      cases x <;> first | rfl | cases this
  induction v with
  | nil => simp only [semList]; exact .pure trivial
  | cons x xs ih =>
    have hxs := fun y hy => h y (List.mem_cons_of_mem _ hy)
    simp only [semList]
    rw [semElse_noElse env (hels xs hxs)]
    refine Runs.bind ?_ (ih hxs)
    have hx := h x List.mem_cons_self
    cases x with
    | text t g l =>
      cases g with
      | none => simp only [sem]; exact .tell trivial
      | some g => cases hx
    | expr c s l =>
      simp only [sem]
      refine Still.bind (evalM_still hO env c) fun v hv => ?_
      cases s
      · exact (emit_shows hc _ _ (raw_escape hv)).runs
      · exact emit_runs hc _ hv
    | _ => cases hx

omit hO hc in
theorem Tr.reading {loc : Nat → Str → Prop} {I : Store (List Ir) W → Prop} {Q : Unit → Str → Prop} {m : MT W Unit}
    (h : Tr L loc I Q m) (y : Bool) : Tr L loc I Q (reading y m) := by
  intro s hs hf hi a ha
  have e := reading_ok ha
  rw [e] at ha ⊢
  exact h s hs hf hi a ha

omit hO hc in
theorem collectM_still (env : Env) {body : Env → MT W Unit} (h : ∀ env, Runs L (body env)) :
    Still L (fun _ => True) (collectM env body) := by
  unfold collectM
  refine Still.bind ((newFrame_silent (by simp [TameDict]) _).still (newFrame_keeps _ _)) fun fr _ => ?_
  refine Still.bind (V := fun _ => True) ?_ fun o _ =>
    Silent.still (modFrame_silent env fun x hx => hx) (modFrame_keeps env (fun _ => rfl) fun _ _ _ => rfl)
  intro s hs hf hi a ha
  have h1 := h { env with frame := fr, mode := .collect } s hs hf hi
  unfold M.capture at ha ⊢
  cases hm : body { env with frame := fr, mode := .collect } s with
  | mk o st v =>
    rw [hm] at h1 ha
    cases v with
    | error e => cases ha
    | ok u =>
      obtain ⟨e1, e2, e3, _⟩ := h1 u rfl
      exact ⟨e1, e2, e3, trivial, rfl⟩

/-- Attributes with some of the given names. -/
def SomeAttrs (ns : List Str) (o : Str) : Prop := ∃ ms, ms.Sublist ns ∧ Attrs ms o

/-- Other attributes. -/
def MoreAttrs (ns : List Str) (o : Str) : Prop := ∃ ks, ks.Nodup ∧ (∀ k ∈ ks, k ∉ ns) ∧ Attrs ks o

omit hO hc in
theorem attrM_shows (env : Env) {n : Str} (hn : Name n) :
    Tr L noVar anyStore (fun _ o => SomeAttrs [n] o) (attrM env n "xml".toList : MT W Unit) := by
  unfold attrM
  refine Tr.get fun s _ _ _ => ?_
  have hx : isHtmlMode "xml".toList = false := by decide
  cases hcoll : (s.frames[env.frame]?).bind (·.coll) with
  | none =>
    have : renderCollected n "xml".toList none = [] := (Props.C05_attr_omitted_iff n _ []).2 rfl
    rw [this]
    exact .pure ⟨[], List.nil_sublist _, .nil⟩
  | some t =>
    obtain ⟨V, hV, hi, _⟩ := Props.C04_attr_contained n "xml".toList t (fun h => by rw [hx] at h; cases h.1)
    rw [hV]
    unfold emitStrs M.each
    refine Tr.bind (Q := fun _ o => Attrs [n] o) (.tell ?_) fun _ o ho => .pure ?_
    · have := Attrs.cons hn hi .nil
      simpa [Out.chunk] using this
    · exact ⟨[n], List.Sublist.refl _, by simpa using ho⟩

omit hO hc in
theorem emitStrs_shows (ss : List Str) :
    Tr L noVar anyStore (fun _ o => o = ss.flatten) (emitStrs ss : MT W Unit) := by
  unfold emitStrs
  induction ss with
  | nil => exact .pure rfl
  | cons s ss ih =>
    unfold M.each
    refine Tr.bind (Q := fun _ o => o = s) (.tell (by simp [Out.chunk])) fun _ o ho => ih.mono fun _ o' ho' => ?_
    rw [ho, ho']; rfl

omit hO hc in
theorem escaped_inert {v : Val} (hn : v ≠ .none) (hv : AttrVal v) : Inert (toStr (escape v)) := by
  cases v with
  | none => exact absurd rfl hn
  | flatItems => cases hv.1
  | flatCall => cases hv.1
  | html s h t => exact hv.2 s h t rfl
  | _ => exact Props.inert_escapeStr _

omit hO hc in
theorem renderAttr_ok {kv : Str × Val} (hn : Name kv.1) (hv : AttrVal kv.2) :
    (renderAttr "xml".toList kv).flatten = [] ∨ Attrs [kv.1] (renderAttr "xml".toList kv).flatten := by
  have hx : isHtmlMode "xml".toList = false := by decide
  have key : ∀ v : Val, AttrVal v → (match v with
      | .none => []
      | v => if isHtmlMode "xml".toList && emptyAttrs.contains kv.1 then [' ' :: lowerAscii kv.1]
        else [' ' :: kv.1 ++ "=\"".toList ++ toStr (escape v) ++ ['"']] : List Str).flatten = [] ∨
      Attrs [kv.1] (match v with
      | .none => []
      | v => if isHtmlMode "xml".toList && emptyAttrs.contains kv.1 then [' ' :: lowerAscii kv.1]
        else [' ' :: kv.1 ++ "=\"".toList ++ toStr (escape v) ++ ['"']] : List Str).flatten := by
    intro v hv
    split
    · exact .inl rfl
    · next hne =>
      right
      rw [hx]
      have := Attrs.cons hn (escaped_inert hne hv) .nil
      simpa using this
  unfold renderAttr
  dsimp only
  refine key _ ?_
  split
  · split
    · exact ⟨rfl, fun _ _ _ h => by cases h⟩
    · exact ⟨rfl, fun _ _ _ h => by cases h⟩
  · exact hv

omit hO hc in
theorem renderAttrs_ok {l : List (Str × Val)} (h : ∀ kv ∈ l, Name kv.1 ∧ AttrVal kv.2) :
    SomeAttrs (l.map (·.1)) (l.flatMap (renderAttr "xml".toList)).flatten := by
  induction l with
  | nil => exact ⟨[], List.nil_sublist _, .nil⟩
  | cons x l ih =>
    obtain ⟨ms, h1, h2⟩ := ih fun kv hk => h kv (List.mem_cons_of_mem _ hk)
    have hx := h x List.mem_cons_self
    rw [List.flatMap_cons, List.flatten_append, List.map_cons]
    rcases renderAttr_ok hx.1 hx.2 with h3 | h3
    · rw [h3]
      exact ⟨ms, h1.cons _, h2⟩
    · exact ⟨x.1 :: ms, h1.cons_cons _, Attrs.append h3 h2⟩

omit hO hc in
theorem attrsM_shows (env : Env) {c : Str} {ns : List Str} (h : AttrsExpr O c ns) :
    Tr L noVar anyStore (fun _ o => MoreAttrs ns o) (attrsM O env c "xml".toList : MT W Unit) := by
  unfold attrsM
  refine Still.bind (V := fun x => ∀ r l, x = .pairs r l → (l.map (·.1)).Nodup ∧
      ∀ kv ∈ l, Name kv.1 ∧ kv.1 ∉ ns ∧ AttrVal kv.2) (ask_still env _ fun v w x w' hv he r l hx => ?_) fun x hx => ?_
  · subst hx
    obtain ⟨h1, h2⟩ := h v w r l w' hv he
    exact ⟨h1, fun kv hk => ⟨(h2 kv hk).1, (h2 kv hk).2.1, (h2 kv hk).2.2.2⟩⟩
  split
  · exact .throw _
  · next ss hss =>
    refine (emitStrs_shows ss).mono fun _ o ho => ?_
    subst ho
    unfold renderAttrs at hss
    split at hss
    · next r l =>
      obtain ⟨h1, h2⟩ := hx r l rfl
      unfold sortAttrs at hss
      rw [anyClash_false _ h1] at hss
      simp only [Bool.false_eq_true, if_false, Except.ok.injEq] at hss
      subst hss
      have hp := insertionSort_perm l
      obtain ⟨ks, h3, h4⟩ := renderAttrs_ok (l := insertionSort l) fun kv hk =>
        ⟨(h2 kv (hp.mem_iff.1 hk)).1, (h2 kv (hp.mem_iff.1 hk)).2.2⟩
      refine ⟨ks, h3.nodup ((hp.map _).nodup_iff.2 h1), fun k hk => ?_, h4⟩
      obtain ⟨kv, hkv, rfl⟩ := List.mem_map.1 (h3.subset hk)
      exact (h2 kv (hp.mem_iff.1 hkv)).2.1
    · cases hss
      exact ⟨[], .nil, by simp, .nil⟩
    · cases hss

/-- What guarded parts of a tag render: all or nothing. -/
def Part (b : Bool) (Q : Str → Prop) (o : Str) : Prop := if b then Q o else Content o

/-- The truth value of a guard where the names `ns` have the values they have in `v0`. -/
def GuardIs (O : Oracle W) (ns : List Str) (v0 : View) (g : Option Str) (b : Bool) : Prop :=
  match activeGuard g with
  | some e => ∀ v w x w', (∀ n ∈ ns, lookup v n = lookup v0 n) → O.eval e v w = (.ok x, w') → truthy x = b
  | none => b = true

/-- The names still have these values. -/
def Inv (env : Env) (ns : List Str) (v0 : View) (s : Store (List Ir) W) : Prop :=
  EnvOk env s ∧ ∀ n ∈ ns, lookup (view env s) n = lookup v0 n

omit hO hc in
theorem guardIs {e : Str} {ns : List Str} (h : Reads O e ns) (v0 : View) {g : Option Str}
    (hg : activeGuard g = some e) : ∃ b, GuardIs O ns v0 g b := by
  unfold GuardIs
  rw [hg]
  by_cases hex : ∃ v w x w', (∀ n ∈ ns, lookup v n = lookup v0 n) ∧ O.eval e v w = (.ok x, w')
  · obtain ⟨v, w, x, w', h1, h2⟩ := hex
    refine ⟨truthy x, fun v' u x' u' h3 h4 => ?_⟩
    exact (h v' v u w x' x u' w' (fun n hn => (h3 n hn).trans (h1 n hn).symm) h4 h2).1
  · exact ⟨true, fun v w x w' h1 h2 => absurd ⟨v, w, x, w', h1, h2⟩ hex⟩

omit hO hc in
theorem inv_keep {env : Env} {ns : List Str} {v0 : View} (hns : ∀ n ∈ ns, ¬ L.R n) (s t : Store (List Ir) W)
    (hs : Safe L.R L.A s) (ht : Safe L.R L.A t) (h : Inv env ns v0 s) (hk : Keep L.R (here env ns) s t) :
    Inv env ns v0 t :=
  ⟨h.1.keep hk, fun n hn => (hk.lookup hs ht h.1 hn (hns n hn)).trans (h.2 n hn)⟩

omit hO hc in
theorem inv_quiet {env : Env} {ns : List Str} {v0 : View} (hns : ∀ n ∈ ns, ¬ L.R n) :
    Quiet L (Inv env ns v0 : Store (List Ir) W → Prop) :=
  ⟨fun s t hs ht h hk => inv_keep hns s t hs ht h (hk.mono fun _ _ _ _ h => h.elim)⟩

section
variable {env : Env} {ns : List Str} {v0 : View}

omit hO hc in
theorem test_const {e : Str} {b : Bool}
    (h : ∀ v w x w', (∀ n ∈ ns, lookup v n = lookup v0 n) → O.eval e v w = (.ok x, w') → truthy x = b) :
    Tr L noVar (Inv env ns v0) (fun c o => c = b ∧ o = []) (test O env e : MT W Bool) := by
  intro s hs hf hi a ha
  have hk := test_keeps (O := O) (R := L.R) (A := L.A) (loc := noVar) env e s hf
  have ho : (test O env e s).out.txt = [] := by
    unfold test evalM ask M.bind
    dsimp only
    split <;> rfl
  refine ⟨?_, hk.1, hk.2.1, ?_, ho⟩
  · have h1 : (test O env e s).st = { s with world := (O.eval e (view env s) s.world).2 } := by
      unfold test evalM ask M.bind
      dsimp only
      split <;> rfl
    rw [h1]
    exact ⟨hs.insts, hs.frames, hs.fns⟩
  · unfold test evalM ask M.bind at ha
    dsimp only at ha
    split at ha
    · cases ha
    · next x hx =>
      cases ha
      exact h (view env s) s.world x _ hi.2 (Prod.ext hx rfl)

variable [Quiet L (Inv env ns v0 : Store (List Ir) W → Prop)]

omit hO hc in
theorem Tr.tested {e : Str} {b : Bool} {R : β → Str → Prop} {f : Bool → MT W β}
    (h : ∀ v w x w', (∀ n ∈ ns, lookup v n = lookup v0 n) → O.eval e v w = (.ok x, w') → truthy x = b)
    (hf : Tr L loc (Inv env ns v0) R (f b)) : Tr L loc (Inv env ns v0) R (M.bind (test O env e) f) := by
  refine Tr.qbind (test_const h) fun c o ho => ?_
  obtain ⟨rfl, rfl⟩ := ho
  simpa using hf

omit hO hc in
theorem text_part {g : Option Str} {b : Bool} (hb : GuardIs O ns v0 g b) (t : Str) (l : Nat)
    {els : MT W Unit} (he : Tr L loc (Inv env ns v0) (fun _ o => Content o) els) :
    Tr L loc (Inv env ns v0) (fun _ o => Part b (fun o => o = t) o) (sem P O call env els (.text t g l)) := by
  unfold GuardIs at hb
  simp only [sem]
  split at hb
  · next e hg =>
    simp only [hg]
    refine Tr.tested hb ?_
    cases b
    · exact he.mono fun _ _ h => h
    · exact .tell (by simp [Part, Out.chunk])
  · next hg =>
    simp only [hg]
    subst hb
    exact .tell (by simp [Part, Out.chunk])

theorem attr_part {g : Option Str} {b : Bool} (hb : GuardIs O ns v0 g b) {n : Str} (hn : Name n)
    {v : List Ir} (hv : ∀ x ∈ v, isValue x = true) (l : Nat) :
    Tr L noVar (Inv env ns v0) (fun _ o => if b then SomeAttrs [n] o else o = [])
      (sem P O call env (M.pure ()) (.attr n "xml".toList g v l)) := by
  have hbody : ∀ env, Runs L (if v.isEmpty then M.tell (.chunk [])
      else reading (showsAny v) (semList P O call env v)) := by
    intro env
    split
    · exact .tell trivial
    · exact Tr.reading (value_runs hO hc env v hv) _
  have key : Tr L noVar anyStore (fun _ o => SomeAttrs [n] o)
      (M.bind (collectM env fun env => if v.isEmpty then M.tell (.chunk [])
          else reading (showsAny v) (semList P O call env v))
        fun _ => attrM env n "xml".toList : MT W Unit) :=
    Still.bind (collectM_still env hbody) fun _ _ => attrM_shows env hn
  unfold GuardIs at hb
  simp only [sem]
  split at hb
  · next e hg =>
    simp only [hg]
    refine Tr.tested hb ?_
    cases b
    · exact .pure rfl
    · exact key.lift
  · next hg =>
    simp only [hg]
    subst hb
    rw [M.bind_pure]
    exact key.lift

omit hO hc in
theorem attrShape_noElse {g : Option Str} {ns : List Str} {as ys : List Ir} (h : AttrShape g ns as)
    (hy : noElse ys = true) : noElse (as ++ ys) = true := by
  cases h
  · exact hy
  · rfl

omit hO hc in
theorem dynShape_noElse {D : Str → List Str → Prop} {g : Option Str} {ns : List Str} {ds ys : List Ir}
    (h : DynShape D g ns ds) (hy : noElse ys = true) : noElse (ds ++ ys) = true := by
  cases h
  · exact hy
  · rfl

theorem attrs_part {g : Option Str} {b : Bool} (hb : GuardIs O ns v0 g b) {ms : List Str} {as : List Ir}
    (h : AttrShape g ms as) {ys : List Ir} (hy : noElse ys = true) {R : Unit → Str → Prop}
    (hr : ∀ o, (if b then SomeAttrs ms o else o = []) →
      Tr L loc (Inv env ns v0) (fun u o' => R u (o ++ o')) (semList P O call env ys)) :
    Tr L loc (Inv env ns v0) R (semList P O call env (as ++ ys)) := by
  induction h generalizing R with
  | nil =>
    refine hr [] ?_
    cases b
    · rfl
    · exact ⟨[], List.nil_sublist _, .nil⟩
  | cons hn hv hs ih =>
    rw [List.cons_append]
    simp only [semList]
    rw [semElse_noElse env (attrShape_noElse hs hy)]
    refine Tr.qbind (attr_part hO hc hb hn hv _) fun _ o ho => ih fun o' ho' => ?_
    have := hr (o ++ o') ?_
    · simpa [List.append_assoc] using this
    · cases b
      · simp only [Bool.false_eq_true, if_false] at ho ho' ⊢
        rw [ho, ho']; rfl
      · simp only [if_true] at ho ho' ⊢
        obtain ⟨m1, s1, a1⟩ := ho
        obtain ⟨m2, s2, a2⟩ := ho'
        exact ⟨m1 ++ m2, by simpa using List.Sublist.append s1 s2, Attrs.append a1 a2⟩

omit hO hc in
include hD in
theorem dyn_part {g : Option Str} {b : Bool} (hb : GuardIs O ns v0 g b) {ms : List Str} {ds : List Ir}
    (h : DynShape L.D g ms ds) {ys : List Ir} (hy : noElse ys = true) {R : Unit → Str → Prop}
    (hr : ∀ o, (if b then MoreAttrs ms o else o = []) →
      Tr L loc (Inv env ns v0) (fun u o' => R u (o ++ o')) (semList P O call env ys)) :
    Tr L loc (Inv env ns v0) R (semList P O call env (ds ++ ys)) := by
  cases h with
  | none =>
    refine hr [] ?_
    cases b
    · rfl
    · exact ⟨[], .nil, by simp, .nil⟩
  | @some c l hd =>
    have key := attrsM_shows (L := L) env (hD c ms hd)
    simp only [List.cons_append, List.nil_append, semList]
    rw [semElse_noElse env hy]
    refine Tr.qbind (Q := fun _ o => if b then MoreAttrs ms o else o = []) ?_ fun _ o ho => hr o ho
    unfold GuardIs at hb
    simp only [sem]
    split at hb
    · next e hg =>
      simp only [hg]
      refine Tr.tested hb ?_
      cases b
      · exact .pure rfl
      · exact key.lift
    · next hg =>
      simp only [hg]
      subst hb
      rw [M.bind_pure]
      exact key.lift

end

/-- Everything a list of nodes can be used for. -/
def AllRender (L : Lang) (P : Prog (List Ir)) (O : Oracle W)
    (call : Mode → Nat → List Val → MT W Unit) (xs : List Ir) : Prop :=
  ∀ env, Renders L env (semList P O call env xs) ∧ Renders L env (semElse P O call env xs) ∧
    ∀ v, Renders L env (semCases P O call env v xs)

omit hO hc in
theorem AllRender.cons {x : Ir} {xs : List Ir} (hxs : AllRender L P O call xs)
    (he : ∀ env, semElse P O call env (x :: xs) = M.pure ())
    (hs : ∀ env v, semCases P O call env v (x :: xs) = M.pure ())
    (hx : ∀ env els, Renders L env els → Renders L env (sem P O call env els x)) :
    AllRender L P O call (x :: xs) := by
  refine fun env => ⟨?_, ?_, fun v => ?_⟩
  · simp only [semList]
    exact (hx env _ (hxs env).2.1).then (hxs env).1
  · rw [he]; exact .nothing
  · rw [hs]; exact .nothing

omit hO hc in
/-- The attributes of an element. -/
theorem tag_attrs {ns : List Str} {o1 o2 : Str} (hd : ns.Nodup) (h1 : SomeAttrs ns o1) (h2 : MoreAttrs ns o2) :
    ∃ ks : List Str, ks.Nodup ∧ Attrs ks (o1 ++ o2) := by
  obtain ⟨ms, hs, a1⟩ := h1
  obtain ⟨ks, hk, hn, a2⟩ := h2
  exact ⟨ms ++ ks, List.nodup_append.2 ⟨hd.sublist hs, hk, fun a h b h' he => hn b h' (he ▸ hs.subset h)⟩, Attrs.append a1 a2⟩

omit hO hc in
/-- Putting an element together. -/
theorem element_content {b : Bool} {tag o1 o2 o2' o3 o4 o5 : Str} {ns : List Str} (hn : Name tag) (hd : ns.Nodup)
    (h1 : Part b (fun o => o = '<' :: tag) o1) (h2 : if b then SomeAttrs ns o2 else o2 = [])
    (h2' : if b then MoreAttrs ns o2' else o2' = [])
    (h3 : Part b (fun o => o = ">".toList) o3) (h4 : Content o4)
    (h5 : Part b (fun o => o = "</".toList ++ tag ++ ">".toList) o5) :
    Content (o1 ++ (o2 ++ (o2' ++ (o3 ++ (o4 ++ o5))))) := by
  unfold Part at h1 h3 h5
  cases b
  · simp only [Bool.false_eq_true, if_false] at h1 h2 h2' h3 h5
    subst h2 h2'
    exact .append h1 (.append Content.nil (.append Content.nil (.append h3 (.append h4 h5))))
  · simp only [if_true] at h1 h2 h2' h3 h5
    obtain ⟨ks, hk, ha⟩ := tag_attrs hd h2 h2'
    have := Content.elem hn ha hk h4
    rw [h1, h3, h5]
    simpa [List.append_assoc] using this

omit hO hc in
theorem empty_content {b : Bool} {tag e o1 o2 o2' o3 : Str} {ns : List Str} (hn : Name tag) (hd : ns.Nodup)
    (he : e = "/>".toList ∨ e = '>' :: ("</".toList ++ tag ++ ">".toList))
    (h1 : Part b (fun o => o = '<' :: tag) o1) (h2 : if b then SomeAttrs ns o2 else o2 = [])
    (h2' : if b then MoreAttrs ns o2' else o2' = [])
    (h3 : Part b (fun o => o = e) o3) : Content (o1 ++ (o2 ++ (o2' ++ o3))) := by
  unfold Part at h1 h3
  cases b
  · simp only [Bool.false_eq_true, if_false] at h1 h2 h2' h3
    subst h2 h2'
    exact .append h1 (.append Content.nil (.append Content.nil h3))
  · simp only [if_true] at h1 h2 h2' h3
    obtain ⟨ks, hk, ha⟩ := tag_attrs hd h2 h2'
    subst h1 h3
    rcases he with rfl | rfl
    · have := Content.empty hn ha hk
      simpa [List.append_assoc] using this
    · have := Content.elem hn ha hk Content.nil
      simpa [List.append_assoc] using this

omit hO hc in
include hG in
/-- The names the guard of an element depends on. -/
theorem guardNames {g : Option Str} {mid : List Ir} (h : ∀ e, activeGuard g = some e → L.G e mid) :
    ∃ ns, NoBinds O ns mid ∧ (∀ n ∈ ns, ¬ L.R n) ∧ ∀ v0, ∃ b, GuardIs O ns v0 g b := by
  cases hg : activeGuard g with
  | none => exact ⟨[], noBinds_nil _, by simp, fun v0 => ⟨true, by unfold GuardIs; rw [hg]⟩⟩
  | some e =>
    obtain ⟨ns, h1, h2, h3⟩ := hG e mid (h e hg)
    exact ⟨ns, h2, h3, fun v0 => guardIs h1 v0 hg⟩

omit hO hc in
/-- It is enough to look at the runs from each store. -/
theorem Tr.from {env : Env} {Q : α → Str → Prop} {m : MT W α} (ns : List Str)
    (h : ∀ v0, Tr L loc (Inv env ns v0) Q m) : Tr L loc (EnvOk env) Q m :=
  fun s hs hf hi => h (view env s) s hs hf ⟨hi, fun _ _ => rfl⟩

include hG hK hD hP hck in
theorem shape_renders {xs : List Ir} (h : Shape L xs) : L.A xs → AllRender L P O call xs := by
  have hP' : ProgSafe L.R (AliasesIn L.R P.aliasFor) P := by rw [hP.aliases]; exact hP.safe
  have hck' : CallKeeps L.R (AliasesIn L.R P.aliasFor) call := by rw [hP.aliases]; exact hck
  have lk : ∀ env ns xs, NoBinds O ns xs → L.A xs →
      Keeps L.R L.A (here env ns) (fun _ => True) (semList P O call env xs) := by
    intro env ns xs h1 h2
    have := semList_keeps hP' hck' env ns xs h1 (by rw [hP.aliases]; exact h2)
    rwa [hP.aliases] at this
  have ek : ∀ env ns xs, NoBinds O ns xs → L.A xs →
      Keeps L.R L.A (here env ns) (fun _ => True) (semElse P O call env xs) := by
    intro env ns xs h1 h2
    have := semElse_keeps hP' hck' env ns xs h1 (by rw [hP.aliases]; exact h2)
    rwa [hP.aliases] at this
  have here_le : ∀ (env : Env) (ns : List Str) i n, here env ns i n → here env [] i n :=
    fun env ns i n h => ⟨h.1, by simp⟩
  induction h with
  | nil =>
    intro _
    refine fun env => ⟨?_, ?_, fun v => ?_⟩
    · simp only [semList]; exact .nothing
    · simp only [semElse]; exact .nothing
    · simp only [semCases]; exact .nothing
  | text ht _ ih =>
    intro hal
    have ih := ih fun n hn => hal n (by simp [aliasesList, hn])
    refine ih.cons (fun env => by simp only [semElse]) (fun env v => by simp only [semCases]) fun env els he => ?_
    simp only [sem]
    exact .tell ht
  | trans ht _ ih =>
    intro hal
    have ih := ih fun n hn => hal n (by simp [aliasesList, hn])
    refine ih.cons (fun env => by simp only [semElse]) (fun env v => by simp only [semCases]) fun env els he => ?_
    simp only [sem]
    split
    · exact .tell (.chars ht)
    · exact Still.bind (gettextM_still hO env ht) fun v hv => (emit_shows hc _ v hv).lift
  | expr _ ih =>
    intro hal
    have ih := ih fun n hn => hal n (by simp [aliasesList, hn])
    refine ih.cons (fun env => by simp only [semElse]) (fun env v => by simp only [semCases]) fun env els he => ?_
    simp only [sem]
    exact Still.bind (evalM_still hO env _) fun v hv => (emit_shows hc _ _ (raw_escape hv)).lift
  | @elem tag g l1 l2 l3 ms as ds body xs hn hg ha hds hd _ _ ihb ih =>
    intro hal
    have halb : L.A body := fun n hn => hal n (by simp [aliasesList, aliasesList_append, hn])
    have ihb := ihb halb
    have ih := ih fun n hn => hal n (by simp [aliasesList, aliasesList_append, hn])
    refine fun env => ⟨?_, ?_, fun v => ?_⟩
    · obtain ⟨ns, hnb, hnr, hgb⟩ := guardNames hG hg
      have hnb : NoBinds O ns body := by
        rw [noBinds_append, noBinds_append] at hnb
        simp only [NoBinds] at hnb
        exact hnb.2.2.2
      refine Tr.from ns fun v0 => ?_
      have := inv_quiet (W := W) (env := env) (v0 := v0) hnr
      obtain ⟨b, hb⟩ := hgb v0
      simp only [semList]
      rw [semElse_noElse env (attrShape_noElse ha (dynShape_noElse hds rfl))]
      refine Tr.qbind (text_part hb _ l1 .nothing) fun _ o1 h1 => ?_
      refine attrs_part hO hc hb ha (dynShape_noElse hds rfl) fun o2 h2 => ?_
      refine dyn_part hD hb hds rfl fun o2' h2' => ?_
      simp only [semList]
      rw [semElse_append env body _ rfl]
      refine Tr.seq (text_part hb _ l2 (((ihb env).2.1.wide (fun _ _ h => h) fun _ h => h.1).keeping
        (ek env ns body hnb halb))) (fun _ o3 h3 => ?_) (inv_keep hnr) (here_le env ns) fun _ _ h => h
      rw [semList_append env body _ rfl]
      refine Tr.seq (((ihb env).1.wide (J := Inv env ns v0) (fun _ _ h => h) fun _ h => h.1).keeping
        (lk env ns body hnb halb)) (fun _ o4 h4 => ?_) (inv_keep hnr) (here_le env ns) fun _ _ h => h
      simp only [semList]
      refine Tr.seq (text_part hb _ l3 ((ih env).2.1.wide (fun _ _ h => h) fun _ h => h.1)) (fun _ o5 h5 => ?_)
        (fun s t _ _ h hk => h.1.keep hk) (fun _ _ h => h) fun _ _ h => h
      refine (ih env).1.mono fun _ o6 h6 => ?_
      have := (element_content hn hd h1 h2 h2' h3 h4 h5).append h6
      simpa [List.append_assoc] using this
    · simp only [semElse]; exact .nothing
    · simp only [semCases]; exact .nothing
  | @empty tag e g l1 l2 ms as ds xs hn hg ha hds hd he _ ih =>
    intro hal
    have ih := ih fun n hn => hal n (by simp [aliasesList, aliasesList_append, hn])
    refine fun env => ⟨?_, ?_, fun v => ?_⟩
    · obtain ⟨ns, hnb, hnr, hgb⟩ := guardNames hG hg
      refine Tr.from ns fun v0 => ?_
      have := inv_quiet (W := W) (env := env) (v0 := v0) hnr
      obtain ⟨b, hb⟩ := hgb v0
      simp only [semList]
      rw [semElse_noElse env (attrShape_noElse ha (dynShape_noElse hds rfl))]
      refine Tr.qbind (text_part hb _ l1 .nothing) fun _ o1 h1 => ?_
      refine attrs_part hO hc hb ha (dynShape_noElse hds rfl) fun o2 h2 => ?_
      refine dyn_part hD hb hds rfl fun o2' h2' => ?_
      simp only [semList]
      refine Tr.seq (text_part hb _ l2 ((ih env).2.1.wide (fun _ _ h => h) fun _ h => h.1)) (fun _ o3 h3 => ?_)
        (fun s t _ _ h hk => h.1.keep hk) (fun _ _ h => h) fun _ _ h => h
      refine (ih env).1.mono fun _ o6 h6 => ?_
      have := (empty_content hn hd he h1 h2 h2' h3).append h6
      simpa [List.append_assoc] using this
    · simp only [semElse]; exact .nothing
    · simp only [semCases]; exact .nothing
  | @python ls l xs _ ih =>
    intro hal
    have ih := ih fun n hn => hal n (by simp [aliasesList, hn])
    have hx : ∀ env els, Renders L env (sem P O call env els (.python ls l)) := by
      intro env els
      simp only [sem]
      split
      · exact .nothing
      · exact Still.bind (ask_still env _ (hO.py ls)) fun b hb => (setVars_tr env hb).silent
    refine fun env => ⟨?_, ?_, fun v => ?_⟩
    · simp only [semList]; exact (hx _ _).then (ih env).1
    · cases ls with
      | nil => simp only [semElse]; exact (ih env).2.1
      | cons => simp only [semElse]; exact .nothing
    · cases ls with
      | nil => simp only [semCases]; exact (ih env).2.2 v
      | cons => simp only [semCases]; exact .nothing
  | @imp n a l xs _ ih =>
    intro hal
    have ih := ih fun n hn => hal n (by simp [aliasesList, hn])
    refine ih.cons (fun env => by simp only [semElse]) (fun env v => by simp only [semCases]) fun env els he => ?_
    simp only [sem]
    exact Still.bind (importM_still hP env _ _ (hal _ (by simp [aliasesList, aliases]))) fun _ _ => Tr.nothing
  | @incl n l xs _ ih =>
    intro hal
    have ih := ih fun n hn => hal n (by simp [aliasesList, hn])
    refine ih.cons (fun env => by simp only [semElse]) (fun env v => by simp only [semCases]) fun env els he => ?_
    simp only [sem]
    exact Still.bind (importM_still hP env _ _ (hal _ (by simp [aliasesList, aliases]))) fun i _ =>
      (emitMain_shows hc _ i).lift
  | ext _ ih =>
    intro hal
    have ih := ih fun n hn => hal n (by simp [aliasesList, hn])
    refine ih.cons (fun env => by simp only [semElse]) (fun env v => by simp only [semCases]) fun env els he => ?_
    simp only [sem]
    exact Still.bind (extendM_still hP env _) fun i _ => (emitMain_shows hc _ i).lift
  | pass _ ih =>
    intro hal
    have ih := ih fun n hn => hal n (by simp [aliasesList, hn])
    refine ih.cons (fun env => by simp only [semElse]) (fun env v => by simp only [semCases]) fun env els he => ?_
    simp only [sem]
    exact .tell Content.nil
  | innerDef hb _ _ ih =>
    intro hal
    have ih := ih fun n hn => hal n (by simp [aliasesList, hn])
    refine ih.cons (fun env => by simp only [semElse]) (fun env v => by simp only [semCases]) fun env els he => ?_
    simp only [sem]
    exact (fdefM_tr env _ hb fun n hn => hal n (by simp [aliasesList, aliases, hn])).silent
  | call hk hb _ _ ih =>
    intro hal
    have ih := ih fun n hn => hal n (by simp [aliasesList, hn])
    refine ih.cons (fun env => by simp only [semElse]) (fun env v => by simp only [semCases]) fun env els he => ?_
    simp only [sem]
    refine (fdefM_tr env _ hb fun n hn => hal n (by simp [aliasesList, aliases, hn])).silent.then ?_
    exact Still.bind (ask_still env _ (hK _ hk)) fun v hv => (emit_shows hc _ v hv).lift
  | forN _ _ ihb ih =>
    intro hal
    have ih := ih fun n hn => hal n (by simp [aliasesList, hn])
    have ihb := ihb fun n hn => hal n (by simp [aliasesList, aliases, hn])
    refine ih.cons (fun env => by simp only [semElse]) (fun env v => by simp only [semCases]) fun env els he => ?_
    simp only [sem]
    refine Still.bind (ask_still env _ (hO.iter _)) fun bs hbs => Tr.then ?_ he
    exact Tr.each fun b hb => (setVars_tr env (hbs b hb)).silent.then (ihb env).1
  | withN _ _ ihb ih =>
    intro hal
    have ih := ih fun n hn => hal n (by simp [aliasesList, hn])
    have ihb := ihb fun n hn => hal n (by simp [aliasesList, aliases, hn])
    refine ih.cons (fun env => by simp only [semElse]) (fun env v => by simp only [semCases]) fun env els he => ?_
    simp only [sem]
    refine Still.bind (kjInst_still env) fun _ _ => Tr.get fun s hs _ _ => ?_
    refine Tr.then (Tr.each fun kv _ => ?_) (Tr.then (ihb env).1 ?_)
    · refine Still.bind (evalM_still hO env _) fun v hv => (setVars_tr env ?_).silent
      intro x hx
      simp only [List.mem_singleton] at hx
      subst hx
      exact hv
    · refine (setVars_tr env ?_).silent
      intro x hx
      have := (List.of_mem_zip hx).2
      simp only [List.mem_map] at this
      obtain ⟨k, _, hk⟩ := this
      rw [← hk]
      refine tameDict_getD ?_ .unit
      unfold localVars
      split
      · next f hf => exact hs.frames f (List.mem_of_getElem? hf)
      · simp [TameDict]
  | switchN _ _ ihb ih =>
    intro hal
    have ih := ih fun n hn => hal n (by simp [aliasesList, hn])
    have ihb := ihb fun n hn => hal n (by simp [aliasesList, aliases, hn])
    refine ih.cons (fun env => by simp only [semElse]) (fun env v => by simp only [semCases]) fun env els he => ?_
    simp only [sem]
    refine Still.bind (kjInst_still env) fun _ _ => Still.bind (evalM_still hO env _) fun v hv => ?_
    exact ((ihb env).2.2 v).then (ihb env).1
  | caseN _ _ ihb ih =>
    intro hal
    have ih := ih fun n hn => hal n (by simp [aliasesList, hn])
    have ihb := ihb fun n hn => hal n (by simp [aliasesList, aliases, hn])
    refine fun env => ⟨?_, ?_, fun v => ?_⟩
    · simp only [semList, sem]; exact Tr.nothing.then (ih env).1
    · simp only [semElse]; exact .nothing
    · simp only [semCases]
      refine Still.bind (evalM_still hO env _) fun u hu => ?_
      split
      · exact (ihb env).1
      · exact (ih env).2.2 v
  | ifN _ _ ihb ih =>
    intro hal
    have ih := ih fun n hn => hal n (by simp [aliasesList, hn])
    have ihb := ihb fun n hn => hal n (by simp [aliasesList, aliases, hn])
    refine ih.cons (fun env => by simp only [semElse]) (fun env v => by simp only [semCases]) fun env els he => ?_
    simp only [sem]
    refine Still.bind (test_still hO env _) fun c _ => ?_
    split
    · exact (ihb env).1
    · exact he
  | elseN _ _ ihb ih =>
    intro hal
    have ih := ih fun n hn => hal n (by simp [aliasesList, hn])
    have ihb := ihb fun n hn => hal n (by simp [aliasesList, aliases, hn])
    refine fun env => ⟨?_, ?_, fun v => ?_⟩
    · simp only [semList, sem]; exact Tr.nothing.then (ih env).1
    · simp only [semElse]; exact (ihb env).1
    · simp only [semCases]; exact (ihb env).1

end

/-! ## Rendering -/

/-- What the language must satisfy. -/
structure LangOk (L : Lang) (O : Oracle W) : Prop where
  guards : ∀ e mid, L.G e mid → ∃ ns, Reads O e ns ∧ NoBinds O ns mid ∧ ∀ n ∈ ns, ¬ L.R n
  callees : ∀ e, L.K e → RawExpr O e
  attrs : ∀ e ns, L.D e ns → AttrsExpr O e ns

theorem newFrame_tr {b : Dict Val} (hb : TameDict b) (up : Option Nat) {k : Nat → MT W β} {R : β → Str → Prop}
    (h : ∀ fr, Tr L (fun _ _ => True) (fun s => fr < s.frames.length) R (k fr)) :
    Tr L (fun _ _ => True) anyStore R (M.bind (newFrame b up) k) := by
  intro s hs hf _ a ha
  have h1 := (newFrame_silent (L := L) hb up) s hs s.frames.length rfl
  have h2 := newFrame_keeps (R := L.R) (A := L.A) (loc := fun _ _ => True) b up s hf
  have h3 := h s.frames.length _ h1.1 h2.1 (by simp [newFrame]) a ha
  have : M.bind (newFrame b up) k s =
      ⟨(k s.frames.length (newFrame b up s).st).out, (k s.frames.length (newFrame b up s).st).st,
        (k s.frames.length (newFrame b up s).st).val⟩ := by
    simp only [M.bind, newFrame]
    congr 1
  rw [this]
  exact ⟨h3.1, h3.2.1, h2.2.1.trans h3.2.2.1, h3.2.2.2⟩

theorem getInst_tr {i : Nat} {J : Store (List Ir) W → Prop} {k : Inst → MT W β} {R : β → Str → Prop}
    (h : ∀ x, Tr L loc (fun s => J s ∧ i < s.insts.length) R (k x)) : Tr L loc J R (M.bind (getInst i) k) := by
  intro s hs hf hj a ha
  cases hi : s.insts[i]? with
  | none => simp only [M.bind, getInst, hi] at ha; cases ha
  | some x =>
    have hlt := (List.getElem?_eq_some_iff.1 hi).1
    have : M.bind (getInst i) k s = ⟨(k x s).out, (k x s).st, (k x s).val⟩ := by
      simp only [M.bind, getInst, hi]
      congr 1
    rw [this] at ha ⊢
    exact h x s hs hf ⟨hj, hlt⟩ a ha

theorem semCall_ok (hO : TameOracle O) (hL : LangOk L O) (hP : ProgOk L P) (n : Nat) : CallOk L (semCall P O n) := by
  have hk : ∀ n, CallKeeps L.R L.A (semCall P O n) := by
    intro n
    have := semCall_keeps (O := O) (R := L.R) (P := P) (by rw [hP.aliases]; exact hP.safe) n
    rwa [hP.aliases] at this
  induction n with
  | zero => intro mode f as _; exact .throw _
  | succ n ih =>
    intro mode f as has
    refine Tr.keeping (loc := fun _ _ => True) ?_ (hk (n + 1) mode f as)
    unfold semCall callWith
    refine Tr.get fun s hs hsafe _ => ?_
    refine Still.bind (V := fun fn => FnOk L fn ∧ fn ∈ s.fns)
      (.ofOption fun fn hfn => ⟨hs.fns fn (List.mem_of_getElem? hfn), List.mem_of_getElem? hfn⟩) fun fn hfn => ?_
    split
    · next d b hb =>
      refine Still.bind (V := TameDict) ?_ fun vars hv => ?_
      · intro s hs hf _ a ha
        exact ⟨⟨hs.insts, hs.frames, hs.fns⟩, hf.same rfl rfl rfl, .same rfl rfl,
          hO.args d as _ a _ has (Prod.ext ha rfl), rfl⟩
      refine newFrame_tr hv _ fun fr => getInst_tr fun i => ?_
      unfold semBody
      dsimp only
      by_cases he : b.isEmpty = true
      · rw [if_pos he]; exact .tell Content.nil
      · rw [if_neg he]
        refine Tr.reading ?_ _
        refine ((shape_renders hO hL.callees hL.attrs hL.guards hP ih (hk n) (hfn.1 d b hb)
          (hsafe.fns fn hfn.2 d b hb) _).1).wide (fun _ _ _ => trivial) fun s h => h
    · next k hk =>
      refine Still.bind ((globalInst_silent _ _).still (globalInst_keeps _ _)) fun p _ =>
        Still.bind (attrFn_still p _) fun g _ => ?_
      exact (ih mode g as has).lift

theorem emptyStore_ok (w : W) : StoreOk L (emptyStore (List Ir) w) :=
  ⟨by simp [emptyStore], by simp [emptyStore], by simp [emptyStore]⟩

theorem emptyStore_safe (w : W) : Safe L.R L.A (emptyStore (List Ir) w) :=
  ⟨by simp [emptyStore], by simp [emptyStore], by simp [emptyStore]⟩

theorem render_content (hO : TameOracle O) (hL : LangOk L O) (hP : ProgOk L P) {ctx : Dict Val}
    (hctx : TameDict ctx) (hfn : FnNames L.R ctx) (n c : Nat) (w : W) {a : Unit}
    (h : (M.bind (newInst P c ctx) (fun i => semRender P O n i) (emptyStore _ w)).val = .ok a) :
    Content (M.bind (newInst P c ctx) (fun i => semRender P O n i) (emptyStore _ w)).out.txt := by
  have : Shows L (M.bind (newInst P c ctx) (fun i => semRender P O n i)) :=
    Still.bind ((newInst_silent hP c hctx).still (newInst_keeps hP.safe c hfn)) fun i _ =>
      emitMain_shows (semCall_ok hO hL hP n) _ i
  exact (this _ (emptyStore_ok w) (emptyStore_safe w) trivial a h).2.2.2

end Kajiki.Wf
