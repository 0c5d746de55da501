import Verif.Spec.Integration
import Verif.Props.Options

/-!
# C86: Kajiki in a Pyramid application; C87: Kajiki in TurboGears
-/

namespace Kajiki.Props
open Kajiki.Loader Kajiki.Spec.Integration

/-! ## Words -/

private theorem words_aux (s : Str) : ∀ (w : Str), (∀ c ∈ w, isSpace c = false) →
    (w = [] → Words s (splitWordsAux [] s)) ∧
    (w ≠ [] → ∃ v rest ws, s = v ++ rest ∧ (∀ c ∈ v, isSpace c = false) ∧
      (∀ c, rest.head? = some c → isSpace c = true) ∧ Words rest ws ∧ splitWordsAux w s = (w ++ v) :: ws) := by
  induction s with
  | nil =>
    intro w _
    refine ⟨fun _ => .none (by simp), fun hne => ⟨[], [], [], rfl, by simp, by simp, .none (by simp), ?_⟩⟩
    unfold splitWordsAux
    cases w with
    | nil => exact absurd rfl hne
    | cons a as => simp
  | cons c s ih =>
    intro w hw
    by_cases hc : isSpace c = true
    · have h0 : Words (c :: s) (splitWordsAux [] s) := by
        have := (ih [] (by simp)).1 rfl
        generalize splitWordsAux [] s = ws at this
        cases this with
        | none h =>
          refine .none fun x hx => ?_
          rcases List.mem_cons.1 hx with rfl | hx
          · exact hc
          · exact h x hx
        | @word blank w rest ws h1 h2 h3 h4 h5 =>
          exact Words.word (blank := c :: blank) (fun x hx => by
            rcases List.mem_cons.1 hx with rfl | hx
            · exact hc
            · exact h1 x hx) h2 h3 h4 h5
      refine ⟨fun _ => ?_, fun hne => ⟨[], c :: s, splitWordsAux [] s, rfl, by simp, by simp [hc], h0, ?_⟩⟩
      · unfold splitWordsAux
        rw [if_pos hc]
        exact h0
      · rw [splitWordsAux, if_pos hc]
        cases w with
        | nil => exact absurd rfl hne
        | cons a as => simp
    · have hc' : isSpace c = false := by simpa using hc
      refine ⟨fun _ => ?_, fun hne => ?_⟩
      · obtain ⟨v, rest, ws, hs, hv, hr, hws, he⟩ := (ih [c] (by simpa using hc')).2 (by simp)
        unfold splitWordsAux
        rw [if_neg hc]
        change Words _ (splitWordsAux [c] s)
        rw [he, hs]
        exact Words.word (blank := []) (w := [c] ++ v) (by simp) (by simp) (fun x hx => by
          rcases List.mem_cons.1 hx with rfl | hx
          · exact hc'
          · exact hv x hx) hr hws
      · obtain ⟨v, rest, ws, hs, hv, hr, hws, he⟩ := (ih (w ++ [c]) (fun x hx => by
          rcases List.mem_append.1 hx with hx | hx
          · exact hw x hx
          · rw [List.mem_singleton.1 hx]; exact hc')).2 (by simp)
        refine ⟨c :: v, rest, ws, by rw [hs]; rfl, fun x hx => ?_, hr, hws, ?_⟩
        · rcases List.mem_cons.1 hx with rfl | hx
          · exact hc'
          · exact hv x hx
        · rw [splitWordsAux, if_neg hc, he]
          simp

private theorem split_unique {p : Char → Bool} {a b x y : Str} (ha : ∀ c ∈ a, p c = true)
    (hb : ∀ c ∈ b, p c = true) (hx : ∀ c, x.head? = some c → p c = false) (hy : ∀ c, y.head? = some c → p c = false)
    (h : a ++ x = b ++ y) : a = b ∧ x = y := by
  induction a generalizing b with
  | nil =>
    cases b with
    | nil => exact ⟨rfl, h⟩
    | cons d b =>
      have h : x = d :: (b ++ y) := h
      have h1 := hx d (by rw [h]; rfl)
      rw [hb d List.mem_cons_self] at h1
      cases h1
  | cons c a ih =>
    cases b with
    | nil =>
      have h : c :: (a ++ x) = y := h
      have h1 := hy c (by rw [← h]; rfl)
      rw [ha c List.mem_cons_self] at h1
      cases h1
    | cons d b =>
      obtain ⟨rfl, h'⟩ := List.cons.inj (show c :: (a ++ x) = d :: (b ++ y) from h)
      have k := ih (fun c hc => ha c (List.mem_cons_of_mem _ hc)) (fun c hc => hb c (List.mem_cons_of_mem _ hc)) h'
      exact ⟨by rw [k.1], k.2⟩

private theorem words_unique {s : Str} {ws vs : List Str} (h : Words s ws) : Words s vs → ws = vs := by
  induction h generalizing vs with
  | none h =>
    intro h'
    cases h' with
    | none => rfl
    | @word blank w rest ws h1 h2 h3 h4 h5 =>
      cases w with
      | nil => exact absurd rfl h2
      | cons c w =>
        have := h c (by simp)
        rw [h3 c List.mem_cons_self] at this
        cases this
  | @word blank w rest ws h1 h2 h3 h4 _ ih =>
    intro h'
    generalize hs : blank ++ w ++ rest = s at h'
    cases h' with
    | none h =>
      cases w with
      | nil => exact absurd rfl h2
      | cons c w =>
        have := h c (by rw [← hs]; simp)
        rw [h3 c List.mem_cons_self] at this
        cases this
    | @word blank' w' rest' ws' h1' h2' h3' h4' h5' =>
      rw [List.append_assoc, List.append_assoc] at hs
      have head : ∀ {w rest : Str}, w ≠ [] → (∀ c ∈ w, isSpace c = false) →
          ∀ c, (w ++ rest).head? = some c → isSpace c = false := by
        intro w rest hw hs c hc
        cases w with
        | nil => exact absurd rfl hw
        | cons d w =>
          obtain rfl := Option.some.inj (show some d = some c from hc)
          exact hs d List.mem_cons_self
      obtain ⟨-, hs⟩ := split_unique h1 h1' (head h2 h3) (head h2' h3') hs
      obtain ⟨rfl, rfl⟩ := split_unique (p := fun c => !isSpace c) (fun c hc => by simp [h3 c hc])
        (fun c hc => by simp [h3' c hc]) (fun c hc => by simp [h4 c hc]) (fun c hc => by simp [h4' c hc]) hs
      rw [ih h5']

/-- **C86.** The extensions are the words of the setting. -/
theorem C86_words (s : Str) (ws : List Str) : Words s ws ↔ splitWords s = ws := by
  have h : Words s (splitWords s) := (words_aux s [] (by simp)).1 rfl
  constructor
  · exact fun h' => words_unique h h'
  · rintro rfl; exact h

/-! ## Pyramid -/

section
open Kajiki.Pyramid
variable (E : Pyramid.Outside)

/-- **C86.** Kajiki is included in an application that has no loader: the words of `kajiki.extensions` are registered, and
the loader has the mode `kajiki.mode` and reloads if `pyramid.reload_templates` says so.  Without these settings, the
extension is `.kajiki` and the mode is `html5`. -/
theorem C86_first_include (settings : Dict Str) (app : App) (h : app.loader = none) (reload : Bool)
    (hb : E.asbool (settings.get "pyramid.reload_templates".toList) = .ok reload) (ws : List Str)
    (hw : Words ((settings.get "kajiki.extensions".toList).getD ".kajiki".toList) ws) :
    includeme E settings app = (.ok (), ⟨app.renderers ++ ws,
      some ⟨reload, (settings.get "kajiki.mode".toList).getD "html5".toList, {}⟩⟩) := by
  unfold includeme
  rw [h]
  dsimp only [Option.isSome]
  rw [(C86_words _ _).1 hw, hb]
  rfl

/-- **C86.** Settings that cannot be read: the exception is raised, the extensions are registered all the same, but there
is no loader; so whatever is shown then is an `AttributeError`, and nothing else changes. -/
theorem C86_unreadable_setting (settings : Dict Str) (app : App) (h : app.loader = none) (e : Err)
    (hb : E.asbool (settings.get "pyramid.reload_templates".toList) = .error e) (ws : List Str)
    (hw : Words ((settings.get "kajiki.extensions".toList).getD ".kajiki".toList) ws) (es : List Event)
    (he : ∀ x ∈ es, including x = false) :
    run E app (.incl settings :: es) = (.error e :: es.map fun _ => .error .attr, ⟨app.renderers ++ ws, none⟩) := by
  have h1 : includeme E settings app = (.error e, ⟨app.renderers ++ ws, none⟩) := by
    unfold includeme
    rw [h]
    dsimp only [Option.isSome]
    rw [(C86_words _ _).1 hw, hb]
    rfl
  have h2 : ∀ (rs : List Str) (es : List Event), (∀ x ∈ es, including x = false) →
      run E ⟨rs, none⟩ es = (es.map fun _ => .error .attr, ⟨rs, none⟩) := by
    intro rs es he
    induction es with
    | nil => rfl
    | cons x es ih =>
      unfold run
      have hx : step E ⟨rs, none⟩ x = (.error .attr, ⟨rs, none⟩) := by
        cases x with
        | incl s => cases he _ List.mem_cons_self
        | view => rfl
        | fragment => rfl
      rw [hx]
      dsimp only
      rw [ih fun y hy => he y (List.mem_cons_of_mem _ hy)]
      rfl
  unfold run
  dsimp only [step]
  rw [h1]
  dsimp only
  rw [h2 _ _ he]
  rfl

private theorem step_loader (app : App) (l : KajikiLoader) (h : app.loader = some l) (x : Event) :
    ∃ st, (step E app x).2 = ⟨app.renderers, some ⟨l.autoReload, l.mode, st⟩⟩ := by
  obtain ⟨rs, lo⟩ := app
  cases h
  cases x with
  | incl s => exact ⟨l.state, rfl⟩
  | view at_ v s => exact ⟨_, rfl⟩
  | fragment => exact ⟨_, rfl⟩

/-- **C86.** Once Kajiki is included, the extensions and the settings stay as they are, whatever happens. -/
theorem C86_settings_stay (app : App) (l : KajikiLoader) (h : app.loader = some l) (es : List Event) :
    ∃ st, (run E app es).2 = ⟨app.renderers, some ⟨l.autoReload, l.mode, st⟩⟩ := by
  induction es generalizing app l with
  | nil =>
    obtain ⟨rs, lo⟩ := app
    cases h
    exact ⟨l.state, rfl⟩
  | cons x es ih =>
    obtain ⟨st, hs⟩ := step_loader E app l h x
    obtain ⟨st', hs'⟩ := ih (step E app x).2 ⟨l.autoReload, l.mode, st⟩ (by rw [hs])
    refine ⟨st', ?_⟩
    change (run E (step E app x).2 es).2 = _
    rw [hs', hs]

/-- **C86.** Including Kajiki again, with any settings, at any time, does nothing: everything that is shown is the same as
without it, and so is the application afterwards. -/
theorem C86_include_again (app : App) (h : app.loader ≠ none) (es : List Event) :
    let without := es.filter fun x => !including x
    others es (run E app es).1 = (run E app without).1 ∧ (run E app es).2 = (run E app without).2 ∧
    ∀ r ∈ inclusions es (run E app es).1, r = .ok none := by
  dsimp only
  induction es generalizing app with
  | nil => exact ⟨rfl, rfl, nofun⟩
  | cons x es ih =>
    cases hl : app.loader with
    | none => exact absurd hl h
    | some l =>
      obtain ⟨st, hs⟩ := step_loader E app l hl x
      have hne : (step E app x).2.loader ≠ none := by rw [hs]; nofun
      obtain ⟨i1, i2, i3⟩ := ih (step E app x).2 hne
      cases hx : including x with
      | true =>
        have e : step E app x = (.ok none, app) := by
          cases x with
          | incl s =>
            dsimp only [step]
            unfold includeme
            rw [hl]
            rfl
          | view => cases hx
          | fragment => cases hx
        rw [List.filter_cons_of_neg (by simp [hx])]
        rw [e] at i1 i2 i3
        refine ⟨?_, ?_, ?_⟩
        · change (if including x = true then _ else _) = _
          rw [if_pos hx]
          change others es (run E (step E app x).2 es).1 = _
          rw [e]
          exact i1
        · change (run E (step E app x).2 es).2 = _
          rw [e]
          exact i2
        · intro r hr
          change r ∈ (if including x = true then _ else _) at hr
          rw [if_pos hx] at hr
          rcases List.mem_cons.1 hr with rfl | hr
          · rw [e]
          · rw [e] at hr
            exact i3 r hr
      | false =>
        rw [List.filter_cons_of_pos (by simp [hx])]
        have hf : ¬including x = true := by rw [hx]; nofun
        refine ⟨?_, i2, ?_⟩
        · change (if including x = true then _ else _) = _
          rw [if_neg hf]
          change _ :: others es (run E (step E app x).2 es).1 = _ :: (run E (step E app x).2 _).1
          rw [i1]
        · intro r hr
          change r ∈ (if including x = true then _ else _) at hr
          rw [if_neg hf] at hr
          exact i3 r hr

/-- What a loader remembers. -/
private def Sound (l : KajikiLoader) : Prop :=
  l.state.timestamps = [] ∧ ∀ n m, l.state.modules.get n = some m → m.kind = .xml l.mode ∧ m.file = n

private theorem import_sound (l : KajikiLoader) (h : Sound l) (c : Call) :
    Sound { l with state := (pyramidImport E.compile l.mode l.autoReload l.state c).2 } ∧
    ∀ m, (pyramidImport E.compile l.mode l.autoReload l.state c).1 = .ok m →
      m.kind = .xml l.mode ∧ m.file = c.name ∧
      (l.autoReload = true → (∀ f, c.fs1 c.name = some f → 0 < f.mtime) →
        ∃ g, c.fs4 c.name = some g ∧ m.content = g.content ∧ m.opts = c.opts) := by
  have base : ∀ st : State, Sound { l with state := st } →
      Sound { l with state := (pyramidBase E.compile l.mode st c).2 } ∧
      ∀ m, (pyramidBase E.compile l.mode st c).1 = .ok m → m.kind = .xml l.mode ∧ m.file = c.name ∧
        (st.modules.get c.name = none → ∃ g, c.fs4 c.name = some g ∧ m.content = g.content ∧ m.opts = c.opts) := by
    intro st hs
    rcases pyramidBase_cases E.compile l.mode st c with ⟨m', hm, h'⟩ | ⟨e, st', h', h1, h2⟩ | ⟨g, st', hn, hg, h', h1, h2⟩
    · rw [h']
      refine ⟨hs, fun m h => ?_⟩
      cases h
      exact ⟨(hs.2 _ _ hm).1, (hs.2 _ _ hm).2, fun hn => by rw [hn] at hm; cases hm⟩
    · rw [h']
      refine ⟨⟨h2.trans hs.1, fun n m h => hs.2 n m ?_⟩, fun _ h => (nomatch h)⟩
      dsimp only at h
      rw [h1] at h
      exact h
    · rw [h']
      refine ⟨⟨h2.trans hs.1, fun n m h => ?_⟩, fun m h => ?_⟩
      · dsimp only at h
        rw [h1, Dict.get_set] at h
        split at h
        · next he => cases h; exact ⟨rfl, he⟩
        · exact hs.2 n m h
      · cases h
        exact ⟨rfl, rfl, fun _ => ⟨g, hg, rfl, rfl⟩⟩
  unfold pyramidImport
  cases hc : l.autoReload && l.state.modules.has c.name with
  | true =>
    rw [if_pos rfl]
    cases hf : c.fs1 c.name with
    | none => exact ⟨h, fun _ h => (nomatch h)⟩
    | some f =>
      dsimp only
      by_cases hgt : f.mtime > (l.state.timestamps.get c.name).getD 0
      · rw [if_pos hgt]
        obtain ⟨b1, b2⟩ := base { l.state with modules := l.state.modules.del c.name } ⟨h.1, fun n m hm => by
          dsimp only at hm
          rw [Dict.get_del] at hm
          split at hm
          · cases hm
          · exact h.2 n m hm⟩
        refine ⟨b1, fun m hm => ?_⟩
        obtain ⟨k1, k2, k3⟩ := b2 m hm
        exact ⟨k1, k2, fun _ _ => k3 (by dsimp only; rw [Dict.get_del, if_pos rfl])⟩
      · rw [if_neg hgt]
        obtain ⟨b1, b2⟩ := base l.state h
        refine ⟨b1, fun m hm => ?_⟩
        obtain ⟨k1, k2, -⟩ := b2 m hm
        refine ⟨k1, k2, fun _ hp => absurd ?_ hgt⟩
        rw [h.1]
        exact hp f rfl
  | false =>
    rw [if_neg (by nofun)]
    obtain ⟨b1, b2⟩ := base l.state h
    refine ⟨b1, fun m hm => ?_⟩
    obtain ⟨k1, k2, k3⟩ := b2 m hm
    refine ⟨k1, k2, fun hr _ => k3 ?_⟩
    rw [hr, Bool.true_and] at hc
    unfold Dict.has at hc
    cases hg : l.state.modules.get c.name with
    | none => rfl
    | some x => rw [hg] at hc; cases hc

private theorem call_sound (l : KajikiLoader) (h : Sound l) (at_ : Call) (value : Option (Dict Val)) (system : System)
    (isFragment : Bool) :
    let r := pyramidCall E.compile l.mode l.autoReload E.abspath E.render l.state at_ value system isFragment
    Sound { l with state := r.2 } ∧
    ∀ shown, r.1 = .ok shown → ∃ name v m, system.template = .ok name ∧ value = some v ∧
      E.render m (system.names.update v) = .ok shown ∧ m.kind = .xml l.mode ∧ m.file = E.abspath name ∧
      (l.autoReload = true → (∀ f, at_.fs1 (E.abspath name) = some f → 0 < f.mtime) →
        ∃ g, at_.fs4 (E.abspath name) = some g ∧ m.content = g.content ∧ m.opts = fragmentOpts isFragment) := by
  dsimp only
  unfold pyramidCall
  cases ht : system.template with
  | error e => exact ⟨h, fun _ h => (nomatch h)⟩
  | ok name =>
    dsimp only
    obtain ⟨i1, i2⟩ := import_sound E l h { at_ with name := E.abspath name, opts := fragmentOpts isFragment }
    generalize pyramidImport E.compile l.mode l.autoReload l.state
      { at_ with name := E.abspath name, opts := fragmentOpts isFragment } = r at i1 i2
    obtain ⟨r, st⟩ := r
    cases r with
    | error e => exact ⟨i1, fun _ h => (nomatch h)⟩
    | ok m =>
      dsimp only
      cases value with
      | none => exact ⟨i1, fun _ h => (nomatch h)⟩
      | some v =>
        refine ⟨i1, fun shown hs => ?_⟩
        obtain ⟨k1, k2, k3⟩ := i2 m rfl
        exact ⟨name, v, m, rfl, rfl, hs, k1, k2, k3⟩

private theorem step_sound (app : App) (l : KajikiLoader) (h : app.loader = some l) (hs : Sound l) (x : Event) :
    ∃ st, (step E app x).2.loader = some { l with state := st } ∧ Sound { l with state := st } := by
  obtain ⟨rs, lo⟩ := app
  cases h
  cases x with
  | incl s => exact ⟨l.state, rfl, hs⟩
  | view at_ v s => exact ⟨_, rfl, (call_sound E l hs at_ v s false).1⟩
  | fragment at_ name dic r v other =>
    refine ⟨_, rfl, ?_⟩
    unfold pyramidFragment
    split
    · exact (call_sound E l hs at_ _ _ true).1
    · exact hs

private theorem run_sound (app : App) (l : KajikiLoader) (h : app.loader = some l) (hs : Sound l) (es : List Event) :
    ∃ st, (run E app es).2.loader = some { l with state := st } ∧ Sound { l with state := st } := by
  induction es generalizing app l with
  | nil => exact ⟨l.state, h, hs⟩
  | cons x es ih =>
    obtain ⟨st, h1, h2⟩ := step_sound E app l h hs x
    exact ih (step E app x).2 { l with state := st } h1 h2

private theorem included (settings : Dict Str) (reload : Bool)
    (hb : E.asbool (settings.get "pyramid.reload_templates".toList) = .ok reload) :
    (step E {} (.incl settings)).2.loader =
      some ⟨reload, (settings.get "kajiki.mode".toList).getD "html5".toList, {}⟩ := by
  dsimp only [step]
  rw [C86_first_include E settings {} rfl reload hb _ ((C86_words _ _).2 rfl)]

/-- **C86.** The life of an application that includes Kajiki first.  Whatever happened since, a view that is shown is shown
by a template that was compiled, in the mode of the settings, from the file of its name, with the names of the view and
then those of Pyramid.  If `pyramid.reload_templates` is on, it is compiled from what the file holds now, as a page. -/
theorem C86_views (settings : Dict Str) (reload : Bool)
    (hb : E.asbool (settings.get "pyramid.reload_templates".toList) = .ok reload) (es : List Event)
    (at_ : Call) (value : Dict Val) (hv : (value.map (·.1)).Nodup) (system : System) (name : Str)
    (hn : system.rendererName = some name ∧ name ≠ [] ∨
      (system.rendererName = none ∨ system.rendererName = some []) ∧ system.rendererInfo = some name)
    (shown : Option Str)
    (h : (step E (run E {} (.incl settings :: es)).2 (.view at_ (some value) system)).1 = .ok shown) :
    ∃ text m context, shown = some text ∧ E.render m context = .ok text ∧
      (∀ k, Dict.get context k = (Dict.get value k).or (Dict.get system.names k)) ∧
      m.kind = .xml ((settings.get "kajiki.mode".toList).getD "html5".toList) ∧ m.file = E.abspath name ∧
      (reload = true → (∀ f, at_.fs1 (E.abspath name) = some f → 0 < f.mtime) →
        ∃ g, at_.fs4 (E.abspath name) = some g ∧ m.content = g.content ∧ m.opts = []) := by
  obtain ⟨st, h1, h2⟩ := run_sound E (step E {} (.incl settings)).2 _ (included E settings reload hb)
    ⟨rfl, fun _ _ h => (nomatch h)⟩ es
  change (step E (run E (step E {} (.incl settings)).2 es).2 _).1 = _ at h
  generalize (run E (step E {} (.incl settings)).2 es).2 = app at h h1
  dsimp only [step] at h
  unfold withLoader at h
  rw [h1] at h
  dsimp only at h
  have k := (call_sound E _ h2 at_ (some value) system false).2
  dsimp only at k
  generalize (pyramidCall E.compile _ reload E.abspath E.render st at_ (some value) system false).1 = r at h k
  cases r with
  | error e => cases h
  | ok text =>
    cases h
    obtain ⟨name', v, m, k1, k2, k3, k4, k5, k6⟩ := k text rfl
    cases k2
    have ht : system.template = .ok name := by
      unfold System.template
      rcases hn with ⟨hn, hne⟩ | ⟨hn, hi⟩
      · rw [hn]
        cases name with
        | nil => exact absurd rfl hne
        | cons a as => rfl
      · rcases hn with hn | hn <;> rw [hn, hi]
    rw [ht] at k1
    cases k1
    exact ⟨text, m, _, rfl, k3, fun k => Dict.get_update_nodup _ _ k hv, k4, k5, k6⟩

end

/-! ## TurboGears -/

section
open Kajiki.TurboGears
variable (E : TurboGears.Outside)

/-- **C87.** A template of TurboGears that is loaded is rendered with the names TurboGears gives, and then those of the
controller: unlike in Pyramid, the controller cannot replace them. -/
theorem C87_names (o : TurboGears.Options) (st st' : State) (at_ : Call) (info extra : Dict Val)
    (hx : (extra.map (·.1)).Nodup) (n : Str) (t : Tpl)
    (h : importFile (TurboGears.loader E o) st { at_ with name := n, opts := [] } = (.ok t, st')) :
    ∃ context, TurboGears.render E true o (some (.ok extra)) st at_ info (.name n) = (E.render t context, st') ∧
      ∀ k, Dict.get context k = (Dict.get extra k).or (Dict.get info k) := by
  refine ⟨info.update extra, ?_, fun k => Dict.get_update_nodup _ _ k hx⟩
  unfold TurboGears.render
  rw [if_neg (by nofun)]
  dsimp only [loadTemplate]
  rw [h]
  rfl

/-- **C87.** Without a function for its names, which is the default, nothing can be rendered: it is a `TypeError`. -/
theorem C87_no_function (o : TurboGears.Options) (st st' : State) (at_ : Call) (info : Dict Val) (n : Str) (t : Tpl)
    (h : importFile (TurboGears.loader E o) st { at_ with name := n, opts := [] } = (.ok t, st')) :
    TurboGears.render E true o none st at_ info (.name n) = (.error .type, st') := by
  unfold TurboGears.render
  rw [if_neg (by nofun)]
  dsimp only [loadTemplate]
  rw [h]
  rfl

/-- **C87** (finding).  In Python 3 nothing can be rendered: it is a `NameError`. -/
theorem C87_python3 (o : TurboGears.Options) (extra : Option (Except Err (Dict Val))) (st : State) (at_ : Call)
    (info : Dict Val) (t : Given) : TurboGears.render E false o extra st at_ info t = (.error .name, st) := rfl

/-- **C87.** The kind of a template that is loaded: the mode `kajiki.force_mode` if it is given and not `text`, a text
template if it is `text`, and otherwise what the extension of the file says. -/
theorem C87_kind (o : TurboGears.Options) (fn : Str) :
    (TurboGears.loader E o).kindOf fn = match o.forceMode with
      | none | some [] => kindOf [] fn
      | some mode => if mode = "text".toList then .ok .text else .ok (.xml mode) := by
  change kindOf (o.forceMode.getD []) fn = _
  cases o.forceMode with
  | none => rfl
  | some mode =>
    cases mode with
    | nil => rfl
    | cons c cs => rfl

/-- **C87** (finding).  The mode `txt` of the documentation makes no text templates: all files are compiled as XML. -/
theorem C87_txt_is_xml (o : TurboGears.Options) (h : o.forceMode = some "txt".toList) (fn : Str) :
    (TurboGears.loader E o).kindOf fn = .ok (.xml "txt".toList) := by
  rw [C87_kind, h]
  rw [show "txt".toList = ['t', 'x', 't'] from rfl, show "text".toList = ['t', 'e', 'x', 't'] from rfl]
  rfl

end

/-! ### Examples -/

namespace IntegrationDemo

private def files : FS := fun p => if p = "/a.kajiki".toList then some ⟨"<a/>".toList, 5⟩ else none
private def edited : FS := fun p => if p = "/a.kajiki".toList then some ⟨"<b/>".toList, 9⟩ else none
private def early : Call := ⟨[], [], files, files, files, files, files⟩
private def late : Call := ⟨[], [], edited, edited, edited, edited, edited⟩
private def E : Pyramid.Outside where
  asbool
    | none => .ok false
    | some s => if s = "on".toList then .ok true else if s = "off".toList then .ok false else .error .value
  compile := fun _ _ _ _ _ => none
  abspath := ('/' :: ·)
  render := fun m context =>
    .ok (m.content ++ (match Dict.get context ['x'] with | some (.str s) => s | _ => []))
private def on : Dict Str :=
  [("kajiki.extensions".toList, " .kajiki\n.xml ".toList), ("pyramid.reload_templates".toList, "on".toList)]
private def view (c : Call) : Pyramid.Event :=
  .view c (some [(['x'], .str ['v'])]) ⟨some "a.kajiki".toList, none, [(['x'], .str ['s'])]⟩

example : Words " .kajiki\n.xml ".toList [".kajiki".toList, ".xml".toList] := (C86_words _ _).2 (by decide +kernel)
example : (Pyramid.run E {} [view early, .incl on, view early, .incl [], view late]).1 =
    [.error .attr, .ok none, .ok (some "<a/>v".toList), .ok none, .ok (some "<b/>v".toList)] := by decide +kernel
example : (Pyramid.run E {} [.incl [], view early, .incl on, view late]).1 =
    [.ok none, .ok (some "<a/>v".toList), .ok none, .ok (some "<a/>v".toList)] := by decide +kernel
example : (Pyramid.run E {} [.incl [("pyramid.reload_templates".toList, "perhaps".toList)], view early]).1 =
    [.error .value, .error .attr] := by decide +kernel

private def T : TurboGears.Outside where
  listdir := fun _ => .ok ["m.html".toList]
  resource := fun _ _ => "/a.kajiki".toList
  compile := fun _ _ _ _ _ => none
  compileString := fun s => .ok ⟨0, .xml [], [], s, []⟩
  render := E.render

example : (TurboGears.render T true ⟨none, some "html".toList⟩ (some (.ok [(['x'], .str ['t'])])) {} early
    [(['x'], .str ['c'])] (.name "p.m".toList)).1 = .ok "<a/>t".toList := by decide +kernel
example : (TurboGears.render T true ⟨none, some "html".toList⟩ none {} early [] (.name "p.m".toList)).1 =
    .error .type := by decide +kernel

end IntegrationDemo
end Kajiki.Props
