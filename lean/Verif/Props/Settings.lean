import Verif.Lemmas.Settings

/-!
# C81: which options reach a template
-/

namespace Kajiki.Props
open Kajiki.Settings Kajiki.Spec.Settings Kajiki.SettingsL

/-- What is decided by a call. -/
private theorem call_decided (o : Cfg) (c : Ctor) (given kw : Dict Opt) (hn : (kw.map (·.1)).Nodup)
    (hg : ∀ k, Dict.has given k = true → c.params.has k = true) :
    ((∀ k, option o kw k ≠ none → Accepted c given k) →
      call c [] given (o.templateOptions.update (kw.del "encoding".toList)) =
        .ok (c, c.params.map fun e => (e.1, setting o given kw e.1 e.2))) ∧
    ((∃ k, option o kw k ≠ none ∧ ¬Accepted c given k) →
      call c [] given (o.templateOptions.update (kw.del "encoding".toList)) = .error .type) := by
  rw [call_eq c given _ hg]
  have key : ((o.templateOptions.update (kw.del "encoding".toList)).any
      fun e => !(c.params.has e.1 && !Dict.has given e.1)) = true ↔ ∃ k, option o kw k ≠ none ∧ ¬Accepted c given k := by
    rw [any_has (p := fun k => !(c.params.has k && !Dict.has given k))]
    refine exists_congr fun k => ?_
    unfold Dict.has
    rw [options_get o kw hn k, Option.isSome_iff_ne_none]
    refine and_congr_right fun _ => ?_
    unfold Accepted Dict.has
    cases (Dict.get c.params k).isSome <;> cases (Dict.get given k).isSome <;> simp
  constructor
  · intro h
    rw [if_neg]
    · refine congrArg (fun x => Except.ok (c, x)) (List.map_congr_left fun e _ => ?_)
      rw [options_get o kw hn]
      rfl
    · rw [key]
      rintro ⟨k, h1, h2⟩
      exact h2 (h k h1)
  · intro h
    rw [if_pos (key.2 h)]

private theorem given_ok {c : Ctor} {given : Dict Opt} (h : ∀ k ∈ given.map (·.1), c.params.has k = true) (k : Str)
    (hk : Dict.has given k = true) : c.params.has k = true := by
  obtain ⟨e, he, rfl⟩ := mem_of_has hk
  exact h e.1 (List.mem_map_of_mem he)

/-- A file whose extension decides. -/
private theorem by_extension (o : Cfg) (fn : Str) (c : Ctor) (mine kw : Dict Opt) (hn : (kw.map (·.1)).Nodup)
    (hg : ∀ k ∈ ["source".toList, "filename".toList] ++ mine.map (·.1), c.params.has k = true)
    (hd : ∀ k ∈ ["source".toList, "filename".toList], k ∉ mine.map (·.1)) :
    let r := callThrough c [] mine [("source".toList, .none), ("filename".toList, .str fn)]
      (o.templateOptions.update (kw.del "encoding".toList))
    let given := [("source".toList, .none), ("filename".toList, .str fn)] ++ mine
    ((∀ k, option o kw k ≠ none → Accepted c given k) →
      r = .ok (c, c.params.map fun e => (e.1, setting o given kw e.1 e.2))) ∧
    ((∃ k, option o kw k ≠ none ∧ ¬Accepted c given k) → r = .error .type) := by
  have hg' : ∀ k, Dict.has ([("source".toList, Opt.none), ("filename".toList, Opt.str fn)] ++ mine) k = true →
      c.params.has k = true := given_ok fun k hk => hg k (by rw [List.map_append] at hk; exact hk)
  dsimp only
  rw [call_twice c _ mine _ hg']
  · exact call_decided o c _ kw hn hg'
  · intro k hk
    obtain ⟨e, he, rfl⟩ := mem_of_has hk
    cases h : Dict.has mine e.1 with
    | false => rfl
    | true =>
      obtain ⟨e', he', hh⟩ := mem_of_has h
      exact absurd (hh ▸ List.mem_map_of_mem he') (hd e.1 (List.mem_map_of_mem (f := (·.1)) he))

/-- The extension decides. -/
private theorem ext_eq (fn : Str) (e : Str) (he : e ≠ []) :
    (Loader.splitext fn).2.drop 1 = e ↔ (Loader.splitext fn).2 = '.' :: e := by
  have hd : (Loader.splitext fn).2 = [] ∨ ∃ t, (Loader.splitext fn).2 = '.' :: t := by
    unfold Loader.splitext
    cases h : Loader.rfind '.' fn with
    | none => exact .inl rfl
    | some i =>
      dsimp only
      split
      · right
        have : ∀ (s : Str) (i : Nat), Loader.rfind '.' s = some i → ∃ t, s.drop i = '.' :: t := by
          intro s
          induction s with
          | nil => intro i h; cases h
          | cons d s ih =>
            intro i h
            unfold Loader.rfind at h
            split at h
            · next j hj =>
              cases h
              exact ih j hj
            · split at h
              · next hd => cases h; exact ⟨s, by rw [hd]; rfl⟩
              · cases h
        exact this fn i h
      · exact .inl rfl
  rcases hd with h | ⟨t, h⟩
  · rw [h]
    constructor
    · intro h'; exact absurd h'.symm he
    · intro h'; cases h'
  · rw [h]
    simp

/-- **C81.** The arguments with which a `FileLoader` makes a template from a file, for `load(name, **kw)`.  A file of an
unknown kind is a `KeyError`.  Otherwise, if all options are accepted, every parameter is what the loader gives by itself,
else the option of this load, else that of the loader, else its default value.  If an option is not accepted, it is a
`TypeError`. -/
theorem C81_arguments (o : Cfg) (fn : Str) (kw : Dict Opt) (hn : (kw.map (·.1)).Nodup) :
    (own o fn = none → arguments o fn [] kw = .error .key) ∧
    (∀ c given, own o fn = some (c, given) →
      ((∀ k, option o kw k ≠ none → Accepted c given k) →
        arguments o fn [] kw = .ok (c, c.params.map fun e => (e.1, setting o given kw e.1 e.2))) ∧
      ((∃ k, option o kw k ≠ none ∧ ¬Accepted c given k) → arguments o fn [] kw = .error .type)) := by
  unfold arguments takeEncoding
  dsimp only
  unfold own
  dsimp only
  by_cases h1 : o.forceMode = "text".toList
  · rw [if_pos h1, if_pos h1]
    refine ⟨fun h => (Option.some_ne_none _ h).elim, ?_⟩
    rintro c given h
    obtain ⟨rfl, rfl⟩ := Prod.mk.inj (Option.some.inj h)
    exact call_decided o _ _ kw hn (given_ok
      (show ∀ k ∈ ["filename".toList, "autoescape".toList], Ctor.text.params.has k = true by decide +kernel))
  rw [if_neg h1, if_neg h1]
  by_cases h2 : o.forceMode = []
  · rw [if_neg (fun h => h h2), if_neg (c := (!List.isEmpty o.forceMode) = true) (by rw [h2]; decide)]
    unfold extensionMap
    rw [show (".txt".toList : Str) = '.' :: "txt".toList from rfl, show (".xml".toList : Str) = '.' :: "xml".toList from rfl,
      show (".html".toList : Str) = '.' :: "html".toList from rfl,
      show (".html5".toList : Str) = '.' :: "html5".toList from rfl]
    simp only [ext_eq fn "txt".toList (by decide), ext_eq fn "xml".toList (by decide),
      ext_eq fn "html".toList (by decide), ext_eq fn "html5".toList (by decide)]
    generalize (Loader.splitext fn).2 = ext
    by_cases e1 : ext = '.' :: "txt".toList
    · rw [if_pos e1, if_pos e1]
      refine ⟨fun h => (Option.some_ne_none _ h).elim, ?_⟩
      rintro c given h
      obtain ⟨rfl, rfl⟩ := Prod.mk.inj (Option.some.inj h)
      exact by_extension o fn .text [("autoescape".toList, o.autoescapeText)] kw hn
        (show ∀ k ∈ ["source".toList, "filename".toList, "autoescape".toList], Ctor.text.params.has k = true by
          decide +kernel)
        (show ∀ k ∈ ["source".toList, "filename".toList], k ∉ ["autoescape".toList] by decide +kernel)
    rw [if_neg e1, if_neg e1]
    by_cases e2 : ext = '.' :: "xml".toList
    · rw [if_pos e2, if_pos e2]
      refine ⟨fun h => (Option.some_ne_none _ h).elim, ?_⟩
      rintro c given h
      obtain ⟨rfl, rfl⟩ := Prod.mk.inj (Option.some.inj h)
      exact by_extension o fn .xml [] kw hn
        (show ∀ k ∈ ["source".toList, "filename".toList], Ctor.xml.params.has k = true by decide +kernel)
        (show ∀ k ∈ ["source".toList, "filename".toList], k ∉ ([] : List Str) by decide +kernel)
    rw [if_neg e2, if_neg e2]
    by_cases e3 : ext = '.' :: "html".toList
    · rw [if_pos e3, if_pos e3]
      refine ⟨fun h => (Option.some_ne_none _ h).elim, ?_⟩
      rintro c given h
      obtain ⟨rfl, rfl⟩ := Prod.mk.inj (Option.some.inj h)
      exact by_extension o fn .xml [("mode".toList, .str "html".toList)] kw hn
        (show ∀ k ∈ ["source".toList, "filename".toList, "mode".toList], Ctor.xml.params.has k = true by decide +kernel)
        (show ∀ k ∈ ["source".toList, "filename".toList], k ∉ ["mode".toList] by decide +kernel)
    rw [if_neg e3, if_neg e3]
    by_cases e4 : ext = '.' :: "html5".toList
    · rw [if_pos e4, if_pos e4]
      refine ⟨fun h => (Option.some_ne_none _ h).elim, ?_⟩
      rintro c given h
      obtain ⟨rfl, rfl⟩ := Prod.mk.inj (Option.some.inj h)
      exact by_extension o fn .xml [("mode".toList, .str "html5".toList)] kw hn
        (show ∀ k ∈ ["source".toList, "filename".toList, "mode".toList], Ctor.xml.params.has k = true by decide +kernel)
        (show ∀ k ∈ ["source".toList, "filename".toList], k ∉ ["mode".toList] by decide +kernel)
    rw [if_neg e4, if_neg e4]
    exact ⟨fun _ => rfl, fun _ _ h => (Option.some_ne_none _ h.symm).elim⟩
  · rw [if_pos h2, if_pos (by simpa using h2)]
    refine ⟨fun h => (Option.some_ne_none _ h).elim, ?_⟩
    rintro c given h
    obtain ⟨rfl, rfl⟩ := Prod.mk.inj (Option.some.inj h)
    exact call_decided o _ _ kw hn (given_ok
      (show ∀ k ∈ ["filename".toList, "mode".toList, "autoblocks".toList], Ctor.xml.params.has k = true by decide +kernel))

/-- An argument that has been set. -/
private theorem arg_map (ps : Dict Opt) (f : Str → Opt → Opt) (k : String) (d : Opt) (h : Dict.get ps k.toList = some d) :
    arg (ps.map fun e => (e.1, f e.1 e.2)) k = f k.toList d := by
  unfold arg
  have : Dict.get (ps.map fun e => (e.1, f e.1 e.2)) k.toList = some (f k.toList d) := by
    induction ps with
    | nil => cases h
    | cons e ps ih =>
      rw [Dict.get_cons] at h
      rw [List.map_cons, Dict.get_cons]
      split
      · next hk =>
        rw [if_pos hk] at h
        rw [hk, Option.some.inj h]
      · next hk =>
        rw [if_neg hk] at h
        exact ih h
  rw [this]
  rfl

/-- What every loader gives. -/
private theorem own_gives {o : Cfg} {fn : Str} {c : Ctor} {given : Dict Opt} (h : own o fn = some (c, given)) :
    Dict.get given "filename".toList = some (.str fn) ∧ (Dict.get given "source".toList).getD .none = .none ∧
      (c = .text → Dict.get given "autoescape".toList = some o.autoescapeText) := by
  unfold own at h
  dsimp only at h
  split at h
  · obtain ⟨rfl, rfl⟩ := Prod.mk.inj (Option.some.inj h)
    exact ⟨rfl, rfl, fun _ => rfl⟩
  split at h
  · obtain ⟨rfl, rfl⟩ := Prod.mk.inj (Option.some.inj h)
    exact ⟨rfl, rfl, nofun⟩
  split at h
  · obtain ⟨rfl, rfl⟩ := Prod.mk.inj (Option.some.inj h)
    exact ⟨rfl, rfl, fun _ => rfl⟩
  split at h
  · obtain ⟨rfl, rfl⟩ := Prod.mk.inj (Option.some.inj h)
    exact ⟨rfl, rfl, nofun⟩
  split at h
  · obtain ⟨rfl, rfl⟩ := Prod.mk.inj (Option.some.inj h)
    exact ⟨rfl, rfl, nofun⟩
  split at h
  · obtain ⟨rfl, rfl⟩ := Prod.mk.inj (Option.some.inj h)
    exact ⟨rfl, rfl, nofun⟩
  · cases h

private theorem setting_filename {o : Cfg} {fn : Str} {c : Ctor} {given kw : Dict Opt} (h : own o fn = some (c, given))
    (d : Opt) : setting o given kw "filename".toList d = .str fn := by
  unfold setting
  rw [(own_gives h).1]

private theorem setting_source {o : Cfg} {fn : Str} {c : Ctor} {given kw : Dict Opt} (h : own o fn = some (c, given))
    (hs : option o kw "source".toList = none) : setting o given kw "source".toList .none = .none := by
  unfold setting
  rw [hs]
  have := (own_gives h).2.1
  cases hg : Dict.get given "source".toList with
  | none => rfl
  | some v => rw [hg] at this; exact this

/-- **C81.** Loading a page with accepted options: the file is read in the encoding of the loader (never that of this
load), and compiled with what the options say. -/
theorem C81_page (E : Outside) (o : Cfg) (fn : Str) (kw : Dict Opt) (hn : (kw.map (·.1)).Nodup) (given : Dict Opt)
    (hc : own o fn = some (.xml, given)) (ha : ∀ k, option o kw k ≠ none → Accepted .xml given k)
    (hs : option o kw "source".toList = none) :
    let S := setting o given kw
    load E o fn [] kw = (E.read fn (S "encoding".toList (.str "utf-8".toList)).string).bind (page E
      ⟨(S "mode".toList .none).string, (S "is_fragment".toList (.bool false)).truthy,
        (S "autoblocks".toList .none).strings, (S "cdata_scripts".toList (.bool true)).truthy⟩
      (S "strip_text".toList (.bool false)).truthy) := by
  dsimp only
  unfold load
  rw [((C81_arguments o fn kw hn).2 _ _ hc).1 ha]
  have A := arg_map xmlParams (setting o given kw)
  dsimp only [make, Ctor.params]
  unfold makeXml source
  rw [A "source" .none rfl, A "filename" .none rfl, A "encoding" _ rfl, A "mode" _ rfl, A "is_fragment" _ rfl,
    A "autoblocks" _ rfl, A "cdata_scripts" _ rfl, A "strip_text" _ rfl, setting_source hc hs, setting_filename hc]
  dsimp only [Opt.string]
  cases E.read fn _ with
  | error e => rfl
  | ok src =>
    dsimp only [Except.bind, page]
    cases E.expat _ <;> rfl

/-- **C81.** Loading a text template with accepted options. -/
theorem C81_text (E : Outside) (o : Cfg) (fn : Str) (hf : fn ≠ []) (kw : Dict Opt) (hn : (kw.map (·.1)).Nodup)
    (given : Dict Opt) (hc : own o fn = some (.text, given)) (ha : ∀ k, option o kw k ≠ none → Accepted .text given k)
    (hs : option o kw "source".toList = none) :
    load E o fn [] kw = (E.read fn (setting o given kw "encoding".toList (.str "utf-8".toList)).string).bind
      (textTemplate E.py E.gen o.autoescapeText.truthy (some fn)) := by
  unfold load
  rw [((C81_arguments o fn kw hn).2 _ _ hc).1 ha]
  have A := arg_map textParams (setting o given kw)
  dsimp only [make, Ctor.params]
  unfold makeText source
  have hauto : setting o given kw "autoescape".toList (.bool false) = o.autoescapeText := by
    unfold setting
    rw [(own_gives hc).2.2 rfl]
  rw [A "source" .none rfl, A "filename" .none rfl, A "encoding" _ rfl, A "autoescape" _ rfl, setting_source hc hs,
    setting_filename hc, hauto]
  rw [if_neg]
  · dsimp only [Opt.string]
    cases E.read fn _ <;> rfl
  · cases fn with
    | nil => exact absurd rfl hf
    | cons a t => exact Bool.false_ne_true

/-- **C81.** The encoding given to `load`, by name or by position, has no effect, although the documentation of `_load` says
that it is used for text templates. -/
theorem C81_encoding_of_load_ignored (E : Outside) (o : Cfg) (fn : Str) (kw : Dict Opt)
    (h : kw.has "encoding".toList = false) (e : Opt) :
    load E o fn [] (("encoding".toList, e) :: kw) = load E o fn [] kw ∧ load E o fn [e] kw = load E o fn [] kw := by
  have hd : kw.del "encoding".toList = kw := by
    unfold Dict.del
    refine List.filter_eq_self.2 fun e he => ?_
    rw [bne_iff_ne]
    intro hh
    have := has_of_mem he
    rw [hh, h] at this
    cases this
  have hd' : Dict.del (("encoding".toList, e) :: kw) "encoding".toList = kw.del "encoding".toList := by
    unfold Dict.del
    rw [List.filter_cons, if_neg (by simp)]
  unfold load arguments takeEncoding
  dsimp only
  rw [hd', h, hd]
  exact ⟨rfl, rfl⟩

/-- **C81.** `xml_autoblocks` has no effect unless a mode is forced. -/
theorem C81_autoblocks_need_mode (E : Outside) (o : Cfg) (fn : Str) (a : Opt) (pos : List Opt) (kw : Dict Opt)
    (h : o.forceMode = []) : load E { o with xmlAutoblocks := a } fn pos kw = load E o fn pos kw := by
  unfold load arguments
  dsimp only
  rw [h]
  rfl

/-- **C81.** An option that `TextTemplate` does not know, given to the loader: no text template can be loaded. -/
theorem C81_text_rejects_other_options (E : Outside) (o : Cfg) (fn : Str) (kw : Dict Opt) (hn : (kw.map (·.1)).Nodup)
    (given : Dict Opt) (hc : own o fn = some (.text, given)) (k : Str) (hk : o.templateOptions.has k = true)
    (ht : textParams.has k = false) : load E o fn [] kw = .error .type := by
  unfold load
  rw [((C81_arguments o fn kw hn).2 _ _ hc).2 ⟨k, ?_, fun h => ?_⟩]
  · unfold option
    obtain ⟨v, hv⟩ := Option.isSome_iff_exists.1 hk
    rw [hv]
    split
    · nofun
    · cases Dict.get kw k <;> nofun
  · have := h.1
    rw [show Ctor.text.params = textParams from rfl, ht] at this
    cases this

/-- **C81.** In Pyramid: pages and fragments are read as UTF-8 and compiled in the mode of the application. -/
theorem C81_pyramid (E : Outside) (mode : Str) (fn : Str) (isFragment : Bool) :
    pyramidLoad E (.str mode) fn [] [("is_fragment".toList, .bool isFragment)] =
      (E.read fn "utf-8".toList).bind (page E ⟨mode, isFragment, [], true⟩ false) := by
  have : pyramidArguments (.str mode) fn [] [("is_fragment".toList, .bool isFragment)] = .ok (.xml,
      [("source".toList, .none), ("filename".toList, .str fn), ("mode".toList, .str mode),
        ("is_fragment".toList, .bool isFragment), ("encoding".toList, .str "utf-8".toList), ("autoblocks".toList, .none),
        ("cdata_scripts".toList, .bool true), ("strip_text".toList, .bool false), ("base_globals".toList, .none)]) := by
    unfold pyramidArguments
    rw [call_eq]
    · rfl
    · exact given_ok (show ∀ k ∈ ["source".toList, "filename".toList, "mode".toList], Ctor.xml.params.has k = true by
        decide +kernel)
  unfold pyramidLoad
  rw [this]
  dsimp only [make]
  unfold makeXml source
  change (match E.read fn "utf-8".toList with
    | .error e => Except.error e
    | .ok src => _) = _
  cases E.read fn "utf-8".toList with
  | error e => rfl
  | ok src =>
    dsimp only [Except.bind, page]
    cases E.expat _ <;> rfl

/-! ### Examples -/

namespace SettingsDemo

/-- A loader that strips texts and forces no mode. -/
def o : Cfg := { templateOptions := [("strip_text".toList, .bool true), ("cdata_scripts".toList, .bool false)] }

/-- Options of a load. -/
def kw : Dict Opt := [("is_fragment".toList, .bool true), ("cdata_scripts".toList, .bool true)]

/-- What the loader gives for this page. -/
def given : Dict Opt :=
  [("source".toList, .none), ("filename".toList, .str "t/a.html".toList), ("mode".toList, .str "html".toList)]

example : own o "t/a.html".toList = some (.xml, given) := by decide +kernel

/-- All its options are accepted for pages. -/
example (k : Str) (h : option o kw k ≠ none) : Accepted .xml given k := by
  have hk : k ∈ ["is_fragment".toList, "cdata_scripts".toList, "strip_text".toList] := by
    refine Decidable.byContradiction fun hn => ?_
    simp only [List.mem_cons, List.not_mem_nil, or_false, not_or] at hn
    obtain ⟨h1, h2, h3⟩ := hn
    apply h
    unfold option
    have e1 : Dict.get kw k = none := by
      unfold kw
      rw [Dict.get_cons, if_neg fun e => h1 e.symm, Dict.get_cons, if_neg fun e => h2 e.symm]
      rfl
    have e2 : Dict.get o.templateOptions k = none := by
      unfold o
      dsimp only
      rw [Dict.get_cons, if_neg fun e => h3 e.symm, Dict.get_cons, if_neg fun e => h2 e.symm]
      rfl
    rw [e1, e2]
    split <;> rfl
  simp only [List.mem_cons, List.not_mem_nil, or_false] at hk
  rcases hk with rfl | rfl | rfl <;> exact ⟨by decide +kernel, by decide +kernel⟩

example : option o kw "source".toList = none := by decide +kernel

/-- The option of the load comes before that of the loader. -/
example : setting o given kw "cdata_scripts".toList (.bool true) = .bool true := by decide +kernel

example : setting o given kw "strip_text".toList (.bool false) = .bool true := by decide +kernel

/-- Text templates cannot be loaded by this loader: `C81_text_rejects_other_options`. -/
example : (own o "t/a.txt".toList).map (·.1) = some .text ∧ o.templateOptions.has "strip_text".toList = true ∧
    textParams.has "strip_text".toList = false := by decide +kernel

/-- A page in the encoding of the loader. -/
example : setting { templateOptions := [("encoding".toList, .str "latin-1".toList)] } given
    [("encoding".toList, .str "utf-16".toList)] "encoding".toList (.str "utf-8".toList) = .str "latin-1".toList := by
  decide +kernel

end SettingsDemo

end Kajiki.Props
