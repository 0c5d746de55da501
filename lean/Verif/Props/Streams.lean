import Verif.Model.Flattener
import Verif.Lemmas.Escape

/-!
# C08, C09: flattening nested streams
-/

namespace Kajiki.Spec.Stream
open Kajiki.Stream

/-- The chunks of a stream in document order, at any depth, without the `None`s. -/
def leaves : List Item → List Val
  | [] => []
  | .chunk .none :: xs => leaves xs
  | .chunk v :: xs => v :: leaves xs
  | .flat ys :: xs => leaves ys ++ leaves xs

/-- The text of a list of chunks. -/
def textOf (vs : List Val) : Str := vs.flatMap toStr

/-- A chunk that is a `str`. -/
def IsStr (v : Val) : Prop := ∃ s, v = .str s

end Kajiki.Spec.Stream

namespace Kajiki.Props
open Kajiki.Stream Kajiki.Spec.Stream

private theorem leaves_cons_chunk (v : Val) (hv : v ≠ .none) (xs : List Item) :
    leaves (.chunk v :: xs) = v :: leaves xs := by
  rw [leaves]; exact hv

private theorem flatIter_cons_chunk (v : Val) (hv : v ≠ .none) (xs : List Item) :
    flatIter (.chunk v :: xs) = v :: flatIter xs := by
  rw [flatIter]; exact hv

private theorem leaves_ne_none : ∀ (xs : List Item), ∀ v ∈ leaves xs, v ≠ .none
  | [], v, h => by simp [leaves] at h
  | .chunk w :: xs, v, h => by
    by_cases hw : w = .none
    · subst hw; rw [leaves] at h; exact leaves_ne_none xs v h
    · rw [leaves_cons_chunk w hw] at h
      rcases List.mem_cons.1 h with h | h
      · rw [h]; exact hw
      · exact leaves_ne_none xs v h
  | .flat ys :: xs, v, h => by
    rw [leaves, List.mem_append] at h
    rcases h with h | h
    · exact leaves_ne_none ys v h
    · exact leaves_ne_none xs v h

/-- **C08.** Iterating a template flattens nested results in place, in document order, at any depth,
and drops every `None`. -/
theorem C08_iter : ∀ items : List Item, flatIter items = leaves items
  | [] => by rw [flatIter, leaves]
  | .chunk v :: xs => by
    by_cases hv : v = .none
    · subst hv; rw [flatIter, leaves]; exact C08_iter xs
    · rw [leaves_cons_chunk v hv, flatIter_cons_chunk v hv, C08_iter xs]
  | .flat ys :: xs => by
    rw [flatIter, leaves, C08_iter ys, C08_iter xs]
    congr 1
    rw [List.filter_eq_self]
    intro v hv
    have := leaves_ne_none ys v hv
    cases v <;> first | rfl | exact absurd rfl this

/-- **C08.** `render()` is the concatenation of the text of those chunks. -/
theorem C08_render (items : List Item) : render items = textOf (leaves items) := by
  rw [render, C08_iter, textOf, List.flatMap]

private theorem textOf_append (a b : List Val) : textOf (a ++ b) = textOf a ++ textOf b := by
  simp [textOf]

private theorem acc_spec (s : Str) (st : List (List Item))
    (h : ∀ l ∈ st, ∀ v ∈ leaves l, IsStr v) :
    accumulate s st = .ok (s ++ st.flatMap fun l => textOf (leaves l)) := by
  fun_induction accumulate s st with
  | case1 s => simp
  | case2 s st ih => rw [ih (fun l hl => h l (by simp [hl]))]; simp [leaves, textOf]
  | case3 s ys xs st ih =>
    rw [ih]
    · simp [leaves, textOf_append]
    · intro l hl v hv
      rcases List.mem_cons.1 hl with rfl | hl
      · exact h _ List.mem_cons_self v (by simp [leaves, hv])
      rcases List.mem_cons.1 hl with rfl | hl
      · exact h _ List.mem_cons_self v (by simp [leaves, hv])
      · exact h l (by simp [hl]) v hv
  | case4 s xs st ih =>
    rw [ih]
    · simp [leaves]
    · intro l hl v hv
      rcases List.mem_cons.1 hl with rfl | hl
      · exact h _ List.mem_cons_self v (by simpa [leaves] using hv)
      · exact h l (by simp [hl]) v hv
  | case5 s t xs st ih =>
    rw [ih]
    · simp only [leaves, List.flatMap_cons, textOf, toStr_str, List.append_assoc]
    · intro l hl v hv
      rcases List.mem_cons.1 hl with rfl | hl
      · exact h _ List.mem_cons_self v (by simp [leaves, hv])
      · exact h l (by simp [hl]) v hv
  | case6 s v xs st hn hs =>
    exfalso
    obtain ⟨t, ht⟩ := h _ List.mem_cons_self v (by rw [leaves_cons_chunk v hn]; simp)
    exact hs t ht

private theorem acc_err (s : Str) (st : List (List Item))
    (h : ∃ l ∈ st, ∃ v ∈ leaves l, ¬ IsStr v) : accumulate s st = .error .type := by
  fun_induction accumulate s st with
  | case1 s => simp at h
  | case2 s st ih =>
    apply ih
    obtain ⟨l, hl, v, hv, hn⟩ := h
    rcases List.mem_cons.1 hl with rfl | hl
    · simp [leaves] at hv
    · exact ⟨l, hl, v, hv, hn⟩
  | case3 s ys xs st ih =>
    apply ih
    obtain ⟨l, hl, v, hv, hn⟩ := h
    rcases List.mem_cons.1 hl with rfl | hl
    · rw [leaves, List.mem_append] at hv
      rcases hv with hv | hv
      · exact ⟨ys, by simp, v, hv, hn⟩
      · exact ⟨xs, by simp, v, hv, hn⟩
    · exact ⟨l, by simp [hl], v, hv, hn⟩
  | case4 s xs st ih =>
    apply ih
    obtain ⟨l, hl, v, hv, hn⟩ := h
    rcases List.mem_cons.1 hl with rfl | hl
    · exact ⟨xs, by simp, v, by simpa [leaves] using hv, hn⟩
    · exact ⟨l, by simp [hl], v, hv, hn⟩
  | case5 s t xs st ih =>
    apply ih
    obtain ⟨l, hl, v, hv, hn⟩ := h
    rcases List.mem_cons.1 hl with rfl | hl
    · simp only [leaves, List.mem_cons] at hv
      rcases hv with hv | hv
      · exact absurd ⟨t, hv⟩ hn
      · exact ⟨xs, by simp, v, hv, hn⟩
    · exact ⟨l, by simp [hl], v, hv, hn⟩
  | case6 => rfl

/-- **C08 (the part that holds).** When all chunks are strings, the string accumulated from a stream
(as done for attributes) is the same concatenation.

Missing from the full claim: streams with chunks that are not strings, see
`C08_accumulate_rejects_other`. -/
theorem C08_accumulate_partial (items : List Item) (h : ∀ v ∈ leaves items, IsStr v) :
    accumulateStr items = .ok (textOf (leaves items)) := by
  rw [accumulateStr, acc_spec]
  · simp
  · simpa using h

/-- **C08 is false in full.** A stream with a chunk that is not a string (for example a number
yielded by a text template's function) renders, but accumulating it for an attribute is a
`TypeError`. -/
theorem C08_accumulate_rejects_other (items : List Item) (h : ∃ v ∈ leaves items, ¬ IsStr v) :
    accumulateStr items = .error .type :=
  acc_err [] [items] (by simpa using h)

private theorem collectParts_spec : ∀ (it : List Item), (∀ v ∈ leaves it, IsStr v) →
    ∃ ps, collectParts it = .ok ps ∧ ps.flatten = textOf (leaves it) ∧
      (ps = [] ↔ ∀ x ∈ it, x = .chunk .none)
  | [], _ => ⟨[], by rw [collectParts], by simp [leaves, textOf], by simp⟩
  | .chunk v :: xs, h => by
    by_cases hv : v = .none
    · subst hv
      obtain ⟨ps, a, b, c⟩ := collectParts_spec xs (by simpa [leaves] using h)
      exact ⟨ps, by rw [collectParts]; exact a, by rw [leaves]; exact b, by simpa using c⟩
    · obtain ⟨ps, a, b, c⟩ := collectParts_spec xs
        (fun w hw => h w (by rw [leaves_cons_chunk v hv]; simp [hw]))
      refine ⟨toStr v :: ps, ?_, ?_, ?_⟩
      · rw [collectParts]
        · rw [a]
        · exact hv
      · rw [leaves_cons_chunk v hv, List.flatten_cons, b]; simp [textOf]
      · simp [hv]
  | .flat ys :: xs, h => by
    obtain ⟨ps, a, b, c⟩ := collectParts_spec xs (fun w hw => h w (by simp [leaves, hw]))
    refine ⟨textOf (leaves ys) :: ps, ?_, ?_, ?_⟩
    · rw [collectParts, C08_accumulate_partial ys (fun w hw => h w (by simp [leaves, hw])), a]
    · rw [leaves, textOf_append, List.flatten_cons, b]
    · simp

/-- **C08.** Collecting an attribute value: with string chunks, it is the same concatenation, or
`None` when the value consisted of nothing but `None`s. -/
theorem C08_collect (it : List Item) (h : ∀ v ∈ leaves it, IsStr v) :
    ((∀ x ∈ it, x = .chunk .none) → collect it = .ok none) ∧
    (¬ (∀ x ∈ it, x = .chunk .none) → collect it = .ok (some (textOf (leaves it)))) := by
  obtain ⟨ps, a, b, c⟩ := collectParts_spec it h
  unfold collect
  rw [a]
  constructor
  · intro h0
    rw [c.2 h0]; rfl
  · intro h0
    cases ps with
    | nil => exact absurd (c.1 rfl) h0
    | cons p ps => rw [← b]; rfl

/-- A nested stream with all cases; the hypotheses hold of it. -/
example : render [.chunk (.str ['a']), .flat [.chunk .none, .flat [.chunk (.int 7)], .chunk (.str ['b'])]]
    = ['a', '7', 'b'] := by
  rw [C08_render]
  simp only [leaves, textOf, List.nil_append, List.append_nil, List.cons_append]
  decide +kernel

example : ∀ v ∈ leaves [.chunk (.str ['a']), .flat [.chunk .none, .chunk (.str ['b'])]], IsStr v := by
  intro v hv
  simp [leaves] at hv
  rcases hv with rfl | rfl
  · exact ⟨_, rfl⟩
  · exact ⟨_, rfl⟩

/-! ## C09 -/

private theorem drain_nil (h : Heap) (out : List Val) : drain h out [] = (out, h) := by
  rw [drain]

private theorem drain_stop (h : Heap) (out : List Val) (i : Nat) (st : List Nat)
    (e : next h i = none) : drain h out (i :: st) = drain h out st := by
  rw [drain]
  split
  · rfl
  all_goals (rename_i e'; rw [e] at e'; cases e')

private theorem drain_flat (h h' : Heap) (out : List Val) (i j : Nat) (st : List Nat)
    (e : next h i = some (.flat j, h')) : drain h out (i :: st) = drain h' out (j :: i :: st) := by
  rw [drain]
  split
  all_goals (rename_i e'; rw [e] at e'; cases e')
  rfl

private theorem drain_str (h h' : Heap) (out : List Val) (i : Nat) (t : Str) (st : List Nat)
    (e : next h i = some (.chunk (.str t), h')) :
    drain h out (i :: st) = drain h' (out ++ [.str t]) (i :: st) := by
  rw [drain]
  split
  all_goals (rename_i e'; rw [e] at e'; cases e')
  rfl

private theorem drain_exhausted (out : List Val) (n : Nat) :
    drain [[], List.replicate n (.flat 0)] out [1] = (out, [[], []]) := by
  induction n with
  | zero => rw [drain_stop _ _ _ _ rfl, drain_nil]; rfl
  | succ n ih =>
    rw [drain_flat (h' := [[], List.replicate n (.flat 0)]) (j := 0)]
    · rw [drain_stop _ _ _ _ rfl, ih]
    · rfl

/-- **C09 is false.** A template that interpolates one `literal()` / `Markup()` value `n + 1` times
(iterator 1 yields it that often) outputs its text only the first time. -/
theorem C09_literal_renders_once (text : Str) (n : Nat) :
    (drain [[.chunk (.str text)], List.replicate (n + 1) (.flat 0)] [] [1]).1 = [.str text] := by
  rw [drain_flat (h' := [[.chunk (.str text)], List.replicate n (.flat 0)]) (j := 0)]
  · rw [drain_str (t := text) (h' := [[], List.replicate n (.flat 0)])]
    · rw [drain_stop _ _ _ _ rfl, drain_exhausted]; rfl
    · rfl
  · rfl

/-- A heap with the template's own iterator (number 0) yielding one new literal per text. -/
def Spec.Stream.distinctLiterals (texts : List Str) : Heap :=
  ((List.range texts.length).map fun i => Ref.flat (i + 1)) ::
    texts.map fun t => [Ref.chunk (.str t)]

open Spec.Stream (distinctLiterals)

private theorem drain_distinct (done rest : List Str) (out : List Val) :
    (drain (((List.range rest.length).map fun i => Ref.flat (i + done.length + 1)) ::
      (done.map (fun _ => []) ++ rest.map fun t => [Ref.chunk (.str t)])) out [0]).1 =
      out ++ rest.map .str := by
  induction rest generalizing done out with
  | nil => rw [drain_stop _ _ _ _ rfl, drain_nil]; simp
  | cons t rest ih =>
    rw [List.length_cons, List.range_succ_eq_map, List.map_cons, List.map_map]
    rw [drain_flat (j := 0 + done.length + 1) (h' := ((List.range rest.length).map
        ((fun i => Ref.flat (i + done.length + 1)) ∘ Nat.succ)) ::
      (done.map (fun _ => []) ++ (t :: rest).map fun t => [Ref.chunk (.str t)]))]
    · rw [drain_str (t := t) (h' := ((List.range rest.length).map
        ((fun i => Ref.flat (i + done.length + 1)) ∘ Nat.succ)) ::
        (done.map (fun _ => []) ++ [] :: rest.map fun t => [Ref.chunk (.str t)]))]
      · rw [drain_stop]
        · have := ih (done ++ [t]) (out ++ [.str t])
          simp only [List.map_append, List.map_cons, List.map_nil, List.append_assoc,
            List.singleton_append, List.length_append, List.length_cons, List.length_nil] at this
          rw [List.map_cons, ← this]
          have hf : ((fun i => Ref.flat (i + done.length + 1)) ∘ Nat.succ) =
              fun i => Ref.flat (i + (done.length + (0 + 1)) + 1) := by
            funext i
            simp only [Function.comp]
            congr 1
            omega
          rw [hf]
        · simp [next]
      · simp [next]
    · simp [next]

/-- **C09 (the part that holds).** Values made by *separate* calls of `literal()` / `Markup()` each
render their own text, in order, however many there are.

Missing: using the same value twice, see `C09_literal_renders_once`. -/
theorem C09_distinct_partial (texts : List Str) :
    (drain (distinctLiterals texts) [] [0]).1 = texts.map .str := by
  have := drain_distinct [] texts []
  simpa [distinctLiterals] using this

example : (drain (distinctLiterals [['a'], ['b']]) [] [0]).1 = [.str ['a'], .str ['b']] :=
  C09_distinct_partial _

end Kajiki.Props
