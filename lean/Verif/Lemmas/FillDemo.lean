import Verif.Model.Program
import Verif.Spec.Fill

/-! A document with expressions, and Python for it, for examples. -/

namespace Kajiki.FillDemo
open Kajiki.Run Kajiki.Spec.Fill

def el (tag : String) (as : List (String × List Item)) (kids : List Node) : Node :=
  .elem tag.toList (as.map fun a => (a.1.toList, a.2)) 1 kids
def chs (s : String) : List Item := s.toList.map .ch
def var (s : String) : Item := .name s.toList
def braces (s : String) : Item := .expr [] s.toList

/-- `<p class="big $c" title="$t" id="${i}">Dear $name, you owe $$${n}!<br/><![CDATA[<$name>]]></p>` -/
def letter : Page :=
  ⟨[], "p".toList, [("class".toList, chs "big " ++ [var "c"]), ("title".toList, [var "t"]), ("id".toList, [braces "i"])], 1,
    [.text (chs "Dear " ++ [var "name"] ++ chs ", you owe $" ++ [braces "n"] ++ chs "!") 1, el "br" [] [],
     .cdata [(chs "<" ++ [var "name"] ++ chs ">", 1)] 1 1], []⟩

/-- Python that accepts single names, and finds the error where the name ends. -/
def names : PyCompile := fun s =>
  if s.all Spec.XmlText.nameChar then none else some (1, (s.takeWhile Spec.XmlText.nameChar).length + 1)

/-- The items that are accepted then. -/
def okItem : Item → Bool
  | .ch _ => true
  | .name [] => false
  | .name (c :: cs) => Spec.XmlText.nameStart c && cs.all Spec.XmlText.nameChar
  | .expr ws e => ws.isEmpty && (e.all Spec.XmlText.nameChar && e.all fun c => !isSpace c)

theorem okItem_ok (esc : Bool) (t : Item) (h : okItem t = true) : t.ok names esc := by
  cases t with
  | ch c => trivial
  | name n =>
    cases n with
    | nil => cases h
    | cons c cs =>
      simp only [okItem, Bool.and_eq_true, List.all_eq_true] at h
      exact ⟨c, cs, rfl, h.1, h.2⟩
  | expr ws e =>
    simp only [okItem, Bool.and_eq_true, List.isEmpty_iff] at h
    obtain ⟨rfl, h, hs⟩ := h
    have hc : ∀ c ∈ e, Spec.XmlText.nameChar c = true := List.all_eq_true.1 h
    have hbrace : Spec.XmlText.nameChar '}' = false := by decide +kernel
    refine ⟨nofun, ?_, ?_, by simp [names, h], fun rest => ⟨1, e.length + 1, ?_, by simp⟩, fun _ => ?_⟩
    · intro c hx
      cases e with
      | nil => cases hx; decide +kernel
      | cons x xs =>
        cases hx
        simpa using List.all_eq_true.1 hs c (by simp)
    · intro hx; have := hc _ hx; revert this; decide +kernel
    · unfold names
      rw [if_neg (by simp [hbrace]), List.takeWhile_append_of_pos hc, List.takeWhile_cons_of_neg (by simp [hbrace]),
        List.append_nil]
    · refine ⟨?_, ?_, ?_⟩ <;> (intro hx; have := hc _ hx; revert this; decide +kernel)

instance : DecidableRel apart := fun a b => by
  cases a <;> cases b <;> unfold apart <;> infer_instance

theorem okText (esc : Bool) (ts : List Item) (h : ts.all okItem = true) (hc : ts.IsChain apart) :
    Text names esc ts := ⟨fun t ht => okItem_ok esc t (List.all_eq_true.1 h t ht), hc⟩

def opts (mode : String) : Opts := ⟨mode.toList, false, [], true⟩

theorem letter_plain : Plain names (opts "xml") letter.root := by
  refine ⟨by decide +kernel, ?_, by decide +kernel, by simp [opts], fun h => absurd h (by decide +kernel), ?_, ?_, ?_, ?_, trivial⟩
  · intro kv hkv
    simp only [letter, List.mem_cons, List.not_mem_nil, or_false] at hkv
    rcases hkv with rfl | rfl | rfl
    all_goals exact ⟨by decide +kernel, okText _ _ (by decide +kernel) (by decide +kernel)⟩
  · exact .cons_cons trivial (.cons_cons trivial (.singleton _))
  · exact okText _ _ (by decide +kernel) (by decide +kernel)
  · exact ⟨by decide +kernel, nofun, by decide +kernel, by simp [opts], nofun, .nil, trivial⟩
  · exact ⟨fun p hp => by rw [List.mem_singleton.1 hp]; exact okText _ _ (by decide +kernel) (by decide +kernel), .singleton _⟩

/-- The values of the example. -/
def context : Dict Val :=
  [("c".toList, .str "\"x".toList), ("t".toList, .none), ("i".toList, .int 7), ("name".toList, .str "<b>&".toList),
   ("n".toList, .int 3)]

/-- Python in which expressions are names of variables of the context. -/
def lookup : Oracle Unit where
  eval e v w := match v.insts[v.inst]? with
    | some i => match Dict.get i.globals e with
      | some x => (.ok x, w)
      | none => (.error .name, w)
    | none => (.error .name, w)
  iter _ _ w := (.error .name, w)
  py _ _ w := (.error .name, w)
  args _ _ w := (.ok [], w)
  gettext _ s w := (.ok (.str s), w)

def valueOf (context : Dict Val) (e : Str) : Val := (Dict.get context e).getD .none

theorem lookup_gives (d : Page) (context : Dict Val) (hn : (context.map (·.1)).Nodup)
    (hl : Dict.get context "local".toList = none)
    (he : ∀ e ∈ d.root.expressions, (Dict.get context e).isSome = true ∧ settled (valueOf context e) = true ∧
      e ≠ "_".toList ∧ e ≠ "value_of".toList) : Gives lookup () context d (valueOf context) where
  values e h := by
    obtain ⟨h1, h2, h3, h4⟩ := he e h
    refine ⟨h2, fun v w hv => ?_⟩
    obtain ⟨x, hx⟩ := Option.isSome_iff_exists.1 h1
    obtain ⟨-, i, hi, hg⟩ := hv
    unfold lookup
    simp only [hi, hg e x hx h3 h4, valueOf, hx]
    rfl
  distinct := hn
  free := hl
  messages _ _ _ := rfl
  main := rfl

end Kajiki.FillDemo
