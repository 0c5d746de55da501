import Verif.Lemmas.Extract

/-!
# C85: extraction finds every text and every shown expression
-/

namespace Kajiki.Props
open Kajiki.Spec.DocSem Kajiki.Spec.Extract Kajiki.ExtractL

/-- **C85.** `extract` looks at every text to translate and every shown expression of a document (`wanted`), provided the
functions of the template have different names; and at nothing else but the calls of blocks. -/
theorem C85_texts_and_expressions (t : Template) (u : Tmpl) (h : compileDoc t.conf t.doc = .ok u) (hp : t.placed = true)
    (root : DNode) (hr : t.root? = some root) :
    (Distinct t → ∀ i ∈ wanted t.conf [] root, i ∈ (readsTmpl u).map (·.2)) ∧
    ∀ i ∈ (readsTmpl u).map (·.2), i ∈ wanted t.conf [] root ∨ isCall i :=
  ⟨(reads_tmpl h hp hr).2, (reads_tmpl h hp hr).1⟩

/-- **C85.** The messages extracted by default are exactly the texts to translate. -/
theorem C85_exactly_the_texts (t : Template) (u : Tmpl) (h : compileDoc t.conf t.doc = .ok u) (hp : t.placed = true)
    (root : DNode) (hr : t.root? = some root) (hd : Distinct t) (m : Str) :
    m ∈ (extractTmpl u).map (·.2) ↔ Read.message m ∈ wanted t.conf [] root := by
  have key : m ∈ (extractTmpl u).map (·.2) ↔ Read.message m ∈ (readsTmpl u).map (·.2) := by
    rw [extractTmpl_reads]
    simp only [List.mem_map, List.mem_filterMap]
    constructor
    · rintro ⟨a, ⟨⟨ln, r⟩, h1, h2⟩, rfl⟩
      cases r with
      | message t => cases h2; exact ⟨_, h1, rfl⟩
      | expression e => cases h2
    · rintro ⟨⟨ln, r⟩, h1, h2⟩
      exact ⟨(ln, m), ⟨_, h1, by rw [show r = .message m from h2]; rfl⟩, rfl⟩
  rw [key]
  constructor
  · intro hm
    rcases (reads_tmpl h hp hr).1 _ hm with h | h
    · exact h
    · exact h.elim
  · exact (reads_tmpl h hp hr).2 hd _

/-- **C85.** Without the option `extract_python`, expressions are ignored. -/
theorem C85_without_python {M : Type} (py : PyCompile) (gen : Nat → Str) (mode : Str) (isFragment stripText : Bool)
    (dtd : Str) (es : List Event) :
    extractAll (M := M) none py gen mode isFragment stripText dtd es =
      (extractMessages py gen mode isFragment stripText dtd es).map
        fun ms => (ms.map fun m => (m.1, .inl m.2), none) := by
  unfold extractAll extractMessages
  cases xmlTemplate py gen (extractOpts mode isFragment) stripText dtd es with
  | error e => rfl
  | ok t => dsimp only [Except.map]; rw [loop_off, extractTmpl_reads]

/-- The source as a template with the options that `extract` gives to the compiler. -/
def extractSource (py : PyCompile) (gen : Nat → Str) (mode : Str) (isFragment stripText : Bool) (dtd : Str)
    (es : List Event) : SourceFile := ⟨py, gen, extractOpts mode isFragment, stripText, dtd, es, []⟩

/-- **C85.** With the option `extract_python`, from the source: if `extract` ends normally, it has yielded every text to
translate and everything Babel finds in shown expressions, and nothing else apart from what Babel finds in the calls of
blocks. -/
theorem C85_with_python {M : Type} (python : Str → List M × Bool) (py : PyCompile) (gen : Nat → Str) (mode : Str)
    (isFragment stripText : Bool) (dtd : Str) (es : List Event) (t : Template) (root : DNode)
    (ht : (extractSource py gen mode isFragment stripText dtd es).template = some t) (hp : t.placed = true)
    (hr : t.root? = some root) (hd : Distinct t) (res : List (Nat × (Str ⊕ M)))
    (h : extractAll (some python) py gen mode isFragment stripText dtd es = .ok (res, none)) :
    (∀ m, (.inl m) ∈ res.map (·.2) ↔ Read.message m ∈ wanted t.conf [] root) ∧
    (∀ e, .expression e ∈ wanted t.conf [] root → ∀ m ∈ (python e).1, (.inr m) ∈ res.map (·.2)) ∧
    ∀ m, (.inr m) ∈ res.map (·.2) →
      ∃ e, m ∈ (python e).1 ∧ (.expression e ∈ wanted t.conf [] root ∨ ∃ name, e = blockDecl name) := by
  unfold extractSource SourceFile.template at ht
  dsimp only at ht
  unfold extractAll xmlTemplate at h
  cases hpe : parseEvents dtd es with
  | error e => rw [hpe] at ht; cases ht
  | ok doc =>
    rw [hpe] at h ht
    cases ht
    dsimp only [compileXmlDoc] at h
    cases hc : compileDoc ⟨py, selectMode (extractOpts mode isFragment).mode (transform stripText doc).dtd,
        extractOpts mode isFragment, gen⟩ (transform stripText doc) with
    | error e => rw [hc] at h; cases h
    | ok u =>
      rw [hc] at h
      obtain ⟨r1, r2⟩ := reads_tmpl (t := ⟨_, _, []⟩) hc hp hr
      have r2 := r2 hd
      injection h with h
      by_cases hf : ∀ x ∈ readsTmpl u, fails python x = false
      · rw [loop_fine hf] at h
        injection h with h _
        subst h
        have key : ∀ y, y ∈ ((readsTmpl u).flatMap (yields python)).map (·.2) ↔
            ∃ x ∈ readsTmpl u, ∃ z ∈ yields python x, z.2 = y := by
          intro y
          simp only [List.mem_map, List.mem_flatMap]
          constructor
          · rintro ⟨z, ⟨x, h1, h2⟩, h3⟩
            exact ⟨x, h1, z, h2, h3⟩
          · rintro ⟨x, h1, z, h2, h3⟩
            exact ⟨z, ⟨x, h1, h2⟩, h3⟩
        refine ⟨fun m => ⟨fun hm => ?_, fun hm => ?_⟩, fun e he m hm => ?_, fun m hm => ?_⟩
        · obtain ⟨⟨ln, r⟩, h1, z, h2, h3⟩ := (key _).1 hm
          have hi := r1 _ (List.mem_map_of_mem (f := (·.2)) h1)
          cases r with
          | message m' =>
            rw [List.mem_singleton.1 h2] at h3
            cases h3
            exact hi.resolve_right id
          | expression e =>
            obtain ⟨a, _, rfl⟩ := List.mem_map.1 h2
            cases h3
        · obtain ⟨⟨ln, r⟩, h1, h2⟩ := List.mem_map.1 (r2 _ hm)
          cases h2
          exact (key _).2 ⟨_, h1, _, List.mem_singleton.2 rfl, rfl⟩
        · obtain ⟨⟨ln, r⟩, h1, h2⟩ := List.mem_map.1 (r2 _ he)
          cases h2
          exact (key _).2 ⟨_, h1, _, List.mem_map_of_mem hm, rfl⟩
        · obtain ⟨⟨ln, r⟩, h1, z, h2, h3⟩ := (key _).1 hm
          have hi := r1 _ (List.mem_map_of_mem (f := (·.2)) h1)
          cases r with
          | message m' =>
            rw [List.mem_singleton.1 h2] at h3
            cases h3
          | expression e =>
            obtain ⟨a, ha, rfl⟩ := List.mem_map.1 h2
            cases h3
            exact ⟨e, ha, hi⟩
      · exfalso
        have : ∀ xs : List (Nat × Read), (¬∀ x ∈ xs, fails python x = false) →
            ∃ a x b, xs = a ++ x :: b ∧ (∀ y ∈ a, fails python y = false) ∧ fails python x = true := by
          intro xs
          induction xs with
          | nil => intro h; exact absurd (fun _ h => nomatch h) h
          | cons x xs ih =>
            intro h
            cases hx : fails python x with
            | true => exact ⟨[], x, xs, rfl, nofun, hx⟩
            | false =>
              obtain ⟨a, y, b, h1, h2, h3⟩ := ih fun h' => h fun z hz => by
                rcases List.mem_cons.1 hz with rfl | hz
                · exact hx
                · exact h' z hz
              refine ⟨x :: a, y, b, by rw [h1]; rfl, fun z hz => ?_, h3⟩
              rcases List.mem_cons.1 hz with rfl | hz
              · exact hx
              · exact h2 z hz
        obtain ⟨a, x, b, h1, h2, h3⟩ := this _ hf
        rw [h1, loop_stops h2 h3] at h
        cases h

/-- **C85.** An expression that Babel cannot read ends the extraction with an error at its line, after everything before it
was yielded. -/
theorem C85_unreadable_expression {M : Type} (python : Str → List M × Bool) (u : Tmpl) (a b : List (Nat × Read)) (ln : Nat)
    (e : Str) (hu : readsTmpl u = a ++ (ln, .expression e) :: b) (h : ∀ ln e, (ln, .expression e) ∈ a → (python e).2 = false)
    (he : (python e).2 = true) :
    extractLoop (some python) (readsTmpl u) = ((extractLoop (some python) a).1 ++ (python e).1.map fun m => (ln, .inr m), some ln) := by
  have hf : ∀ y ∈ a, fails python y = false := by
    rintro ⟨l, r⟩ hy
    cases r with
    | message t => rfl
    | expression e => exact h _ _ hy
  rw [hu, loop_stops hf (x := (ln, .expression e)) he, loop_fine hf]
  simp only [List.flatMap_append, List.flatMap_cons, List.flatMap_nil, List.append_nil]
  rfl

/-! ### Examples -/

namespace ExtractDemo

def valid : PyCompile := fun _ => none
def names : Nat → Str := fun n => "_fn_".toList ++ (toString n).toList

/-- Finds a message in `_(x)`-like expressions: all expressions that begin with `_`; cannot read those with `%`. -/
def babel (e : Str) : List Str × Bool := (if e.head? = some '_' then [e] else [], e.contains '%')

/-- `<p title="Hi $_a" py:if="_b">Hello $_c<b py:content="_d">x</b><i py:block="n">y</i></p>` -/
def page : List Event :=
  [.startElement "p".toList [("title".toList, "Hi $_a".toList), ("py:if".toList, "_b".toList)] 1,
   .characters "Hello $_c".toList 1,
   .startElement "b".toList [("py:content".toList, "_d".toList)] 1, .characters "x".toList 1, .endElement "b".toList,
   .startElement "i".toList [("py:block".toList, "n".toList)] 2, .characters "y".toList 2, .endElement "i".toList,
   .endElement "p".toList]

def source (es : List Event) : SourceFile := extractSource valid names "xml".toList false false [] es

def the (es : List Event) : Template := ((source es).template).getD ⟨⟨valid, [], extractOpts [] false, names⟩, ⟨[], []⟩, []⟩

def run (es : List Event) : Option (List (Nat × (Str ⊕ Str)) × Option Nat) :=
  (extractAll (some babel) valid names "xml".toList false false [] es).toOption

/-- The test of `py:if` is not looked at, so `_b` is not found; the call of the block is. -/
example : run page = some ([(1, .inr "_a".toList), (1, .inl "Hello ".toList), (1, .inr "_c".toList), (1, .inr "_d".toList),
    (2, .inr "_kj_block_n()".toList), (2, .inl "y".toList)], none) := by decide +kernel

example : (the page).placed = true ∧ (the page).root?.isSome = true ∧
    ((the page).root?.map fun r => wanted (the page).conf [] r) = some [.expression "_a".toList, .message "Hello ".toList,
      .expression "_c".toList, .expression "_d".toList, .message "y".toList] ∧
    ((the page).root?.map fun r => ("__main__()".toList :: (defs (the page).conf .root r).map (·.1)).Nodup) = some True := by
  refine ⟨by decide +kernel, by decide +kernel, by decide +kernel, ?_⟩
  have : (the page).root?.map (fun r => (defs (the page).conf .root r).map (·.1)) = some ["_kj_block_n()".toList] := by
    decide +kernel
  revert this
  cases (the page).root? with
  | none => nofun
  | some r =>
    intro h
    rw [Option.map_some] at h ⊢
    injection h with h
    rw [h]
    congr 1
    exact eq_true (by decide +kernel)

/-- `<p>a$b<i>c</i></p>` with an expression that cannot be read -/
example : (extractLoop (some babel) [(1, .message "a".toList), (1, .expression "_b%".toList), (2, .message "c".toList)]) =
    ([(1, .inl "a".toList), (1, .inr "_b%".toList)], some 1) := by decide +kernel

/-- `<p><i py:block="n">a</i><i py:block="n">b</i></p>`: of two blocks with the same name only the second is there, so `a` is
not extracted (and never shown). -/
def twice : List Event :=
  [.startElement "p".toList [] 1,
   .startElement "i".toList [("py:block".toList, "n".toList)] 1, .characters "a".toList 1, .endElement "i".toList,
   .startElement "i".toList [("py:block".toList, "n".toList)] 1, .characters "b".toList 1, .endElement "i".toList,
   .endElement "p".toList]

example : (run twice).map (fun r => r.1.map (·.2)) =
    some [.inr "_kj_block_n()".toList, .inr "_kj_block_n()".toList, .inl "b".toList] := by decide +kernel

end ExtractDemo

/-- `<p py:if="_('m') == m">x</p>` -/
def ExtractDemo.hiddenMessage : List Event :=
  [.startElement "p".toList [("py:if".toList, "_('m') == m".toList)] 1, .characters "x".toList 1, .endElement "p".toList]

/-- **C85, negative.** Messages in directives other than `py:content` and `py:replace` are not found, although they are
evaluated when the template is rendered: here one in the test of a `py:if`. -/
theorem C85_directives_not_read : ∃ (es : List Event) (t : Tmpl),
    xmlTemplate ExtractDemo.valid ExtractDemo.names (extractOpts "xml".toList false) false [] es = .ok t ∧
    ((generatePython t).any fun l => l.code == .ifLine "_('m') == m".toList) = true ∧
    readsTmpl t = [(1, .message "x".toList)] := by
  have key : (match xmlTemplate ExtractDemo.valid ExtractDemo.names (extractOpts "xml".toList false) false []
      ExtractDemo.hiddenMessage with
      | .ok t => ((generatePython t).any fun l => l.code == .ifLine "_('m') == m".toList) &&
          readsTmpl t == [(1, .message "x".toList)]
      | .error _ => false) = true := by decide +kernel
  refine ⟨ExtractDemo.hiddenMessage, ?_⟩
  revert key
  generalize xmlTemplate ExtractDemo.valid ExtractDemo.names (extractOpts "xml".toList false) false []
    ExtractDemo.hiddenMessage = r
  intro key
  cases r with
  | error e => cases key
  | ok t =>
    rw [Bool.and_eq_true] at key
    exact ⟨t, rfl, key.1, eq_of_beq key.2⟩

end Kajiki.Props
