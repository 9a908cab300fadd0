import Verif.Model.PlotIo

/-!
# C125-C127: what `mud.plot` does to the session

Importing the module (C125), `save_figure` (C126) and `plot_1D_vecs` (C127).
-/

namespace Verif
namespace PlotIo

/-! ## Specification: plain names and directories -/

/-- A path component: not empty, not `.`, without a slash. -/
def IsComp (c : List Char) : Prop := c ≠ [] ∧ c ≠ ['.'] ∧ '/' ∉ c

/-- A directory as a user writes it: components separated by single slashes, from the working directory or from `/`. -/
def IsDir (d : String) : Prop :=
  ∃ comps : List (List Char), comps ≠ [] ∧ (∀ c ∈ comps, IsComp c) ∧
    (d.toList = List.intercalate ['/'] comps ∨ d.toList = '/' :: List.intercalate ['/'] comps)

/-- A file name with an extension. -/
def IsName (name : String) : Prop :=
  IsComp name.toList ∧ ∃ stem ext : List Char, name.toList = stem ++ '.' :: ext ∧ ext ≠ [] ∧ '.' ∉ ext ∧
    ∃ ch ∈ stem, ch ≠ '.'

/-! ## Paths -/

theorem intercalate_head {comps : List (List Char)} (h0 : comps ≠ []) (h : ∀ c ∈ comps, IsComp c) :
    ∃ ch t, List.intercalate ['/'] comps = ch :: t ∧ ch ≠ '/' := by
  cases comps with
  | nil => exact absurd rfl h0
  | cons c cs =>
    obtain ⟨h1, -, h3⟩ := h c (by simp)
    cases c with
    | nil => exact absurd rfl h1
    | cons ch t =>
      refine ⟨ch, ?_⟩
      cases cs with
      | nil => exact ⟨t, by simp [List.intercalate], fun e => h3 (by simp [e])⟩
      | cons c2 cs =>
        exact ⟨t ++ '/' :: List.intercalate ['/'] (c2 :: cs), by simp [List.intercalate],
          fun e => h3 (by simp [e])⟩

theorem filter_comps {comps : List (List Char)} (h : ∀ c ∈ comps, IsComp c) :
    comps.filter (fun c => c ≠ [] ∧ c ≠ ['.']) = comps := by
  rw [List.filter_eq_self]
  intro c hc
  simpa using ⟨(h c hc).1, (h c hc).2.1⟩

theorem split_comps {comps : List (List Char)} (h0 : comps ≠ []) (h : ∀ c ∈ comps, IsComp c) :
    (List.intercalate ['/'] comps).splitOn '/' = comps :=
  List.splitOn_intercalate _ (fun c hc => (h c hc).2.2) h0

theorem parse_rel {d : String} {comps : List (List Char)} (h0 : comps ≠ []) (h : ∀ c ∈ comps, IsComp c)
    (e : d.toList = List.intercalate ['/'] comps) : parsePath d = ⟨[], comps⟩ := by
  obtain ⟨ch, t, h1, h2⟩ := intercalate_head h0 h
  unfold parsePath
  congr 1
  · rw [e, h1]
    simp [rootOf, h2]
  · rw [e, split_comps h0 h, filter_comps h]

theorem parse_abs {d : String} {comps : List (List Char)} (h0 : comps ≠ []) (h : ∀ c ∈ comps, IsComp c)
    (e : d.toList = '/' :: List.intercalate ['/'] comps) : parsePath d = ⟨['/'], comps⟩ := by
  obtain ⟨ch, t, h1, h2⟩ := intercalate_head h0 h
  unfold parsePath
  congr 1
  · rw [e, h1]
    simp [rootOf, h2]
  · rw [e]
    have : ('/' :: List.intercalate ['/'] comps).splitOn '/' = [] :: comps := by
      have := List.splitOnP_append_cons (p := (· == '/')) [] (List.intercalate ['/'] comps) (sep := '/') (by simp)
      have h2 : List.splitOnP (· == '/') (List.intercalate ['/'] comps) = comps := split_comps h0 h
      rw [h2] at this
      simpa [List.splitOn] using this
    rw [this, List.filter_cons]
    simpa using filter_comps h

theorem intercalate_snoc {comps : List (List Char)} (h0 : comps ≠ []) (c : List Char) :
    List.intercalate ['/'] (comps ++ [c]) = List.intercalate ['/'] comps ++ '/' :: c := by
  induction comps with
  | nil => exact absurd rfl h0
  | cons a as ih =>
    cases as with
    | nil => simp [List.intercalate]
    | cons b bs =>
      have := ih (by simp)
      simp only [List.intercalate, List.cons_append] at this ⊢
      simp only [List.intersperse_cons_cons, List.flatten_cons, List.append_assoc] at this ⊢
      rw [this]

/-- The file of a plain name in a plain directory. -/
theorem joinPath_plain {d name : String} (hd : IsDir d) (hn : IsComp name.toList) :
    joinPath d name = d ++ "/" ++ name := by
  obtain ⟨comps, h0, h, e⟩ := hd
  have hn' : parsePath name = ⟨[], [name.toList]⟩ :=
    parse_rel (by simp) (by simpa using hn) (by simp [List.intercalate])
  apply String.toList_injective
  unfold joinPath
  rcases e with e | e
  · rw [parse_rel h0 h e, hn']
    simp [PPath.join, PPath.str, intercalate_snoc h0, e]
  · rw [parse_abs h0 h e, hn']
    simp [PPath.join, PPath.str, intercalate_snoc h0, e]

theorem takeWhile_stop {α : Type} (p : α → Bool) (l : List α) (a : α) (r : List α) (h : ∀ x ∈ l, p x) (ha : p a = false) :
    (l ++ a :: r).takeWhile p = l ∧ (l ++ a :: r).dropWhile p = a :: r := by
  induction l with
  | nil => simp [ha]
  | cons x l ih =>
    have := ih fun y hy => h y (by simp [hy])
    have hx := h x (by simp)
    simp [hx, this.1, this.2]

theorem splitExt_name {d name : String} (hn : IsName name) :
    (splitExt (d ++ "/" ++ name).toList).drop 1 ≠ [] := by
  obtain ⟨⟨-, -, h3⟩, stem, ext, e, he, hd, ch, hch, hc⟩ := hn
  have e1 : (d ++ "/" ++ name).toList.reverse = name.toList.reverse ++ '/' :: d.toList.reverse := by simp
  have e2 := (takeWhile_stop (· ≠ '/') name.toList.reverse '/' d.toList.reverse
    (fun x hx => by simpa using fun ex => h3 (by rw [← ex]; simpa using hx)) (by simp)).1
  have e3 : name.toList.reverse = ext.reverse ++ '.' :: stem.reverse := by rw [e]; simp
  have e4 := takeWhile_stop (· ≠ '.') ext.reverse '.' stem.reverse
    (fun x hx => by simpa using fun ex => hd (by rw [← ex]; simpa using hx)) (by simp)
  unfold splitExt
  dsimp only
  rw [e1, e2, List.reverse_reverse, e3, e4.1, e4.2]
  rw [if_pos (by simpa using ⟨ch, hch, hc⟩)]
  simpa using he

theorem target_name {d name : String} (rc : String → Rc) (kw : List (String × String)) (hn : IsName name) :
    target rc kw (d ++ "/" ++ name) = d ++ "/" ++ name := by
  unfold target
  rw [if_pos (.inr (splitExt_name hn))]

/-- Two names in one directory are two files. -/
theorem file_inj {d a b : String} (h : d ++ "/" ++ a = d ++ "/" ++ b) : a = b := by
  have := congrArg String.toList h
  simp only [String.toList_append, List.append_assoc] at this
  exact String.toList_injective (by simpa using this)

/-! ## C126: `save_figure` -/

/-- The session after a figure was written: only the file `p` and the open figures may differ. -/
def Written (s s' : Session) (p : String) (content : Option String) (figs : List (List ℕ)) : Prop :=
  s'.rc = s.rc ∧ s'.axes = s.axes ∧ s'.figs = figs ∧ s'.files p = content ∧ ∀ q, q ≠ p → s'.files q = s.files q

/-- What `save_figure` does, from the current figure `f` to the file. -/
theorem saveFigure_run (E : Mpl) {fname save_path : String} (close_fig : Bool) (kw : List (String × String))
    {s : Session} {f : List ℕ} {rest : List (List ℕ)} (hf : s.figs = f :: rest) {p : String}
    (hp : target s.rc kw (joinPath save_path fname) = p) :
    (∀ pic, E.render p kw s.rc (f.reverse.map s.axes) = .ok pic →
      saveFigure E fname save_path close_fig kw s =
        (.ok (), { s with
          figs := if close_fig then rest else f :: rest
          files := Function.update s.files p (some pic) })) ∧
    (∀ e left, E.render p kw s.rc (f.reverse.map s.axes) = .error (e, left) →
      saveFigure E fname save_path close_fig kw s =
        (.error e, { s with files := Function.update s.files p left })) := by
  obtain ⟨rc, figs, axes, next, files⟩ := s
  cases hf
  cases hp
  constructor
  · intro pic h
    simp only [List.map_reverse] at h
    cases close_fig <;>
      simp [saveFigure, savefig, gcf, PyM.bind_run, current, h, fileAfter, raised, raiseSome, close]
  · intro e left h
    simp only [List.map_reverse] at h
    simp [saveFigure, savefig, gcf, PyM.bind_run, current, h, fileAfter, raised, raiseSome]

/-- **C126.** For a file name with an extension and a directory, `save_figure` writes the current figure to
`save_path/fname` and to no other file, and closes that figure unless told not to; the other open figures and the
settings are as before. -/
theorem C126_saves (E : Mpl) {fname save_path : String} (hd : IsDir save_path) (hn : IsName fname) (close_fig : Bool)
    (kw : List (String × String)) {s : Session} {f : List ℕ} {rest : List (List ℕ)} (hf : s.figs = f :: rest)
    {pic : String} (h : E.render (save_path ++ "/" ++ fname) kw s.rc (f.reverse.map s.axes) = .ok pic) :
    ∃ s', saveFigure E fname save_path close_fig kw s = (.ok (), s') ∧
      Written s s' (save_path ++ "/" ++ fname) (some pic) (if close_fig then rest else f :: rest) := by
  have hp : target s.rc kw (joinPath save_path fname) = save_path ++ "/" ++ fname := by
    rw [joinPath_plain hd hn.1, target_name _ _ hn]
  refine ⟨_, (saveFigure_run E close_fig kw hf hp).1 pic h, rfl, rfl, rfl, by simp, fun q hq => by simp [hq]⟩

/-- **C126.** If rendering or writing raises, whatever the exception, it is the caller's, the figure stays open and no
other file is touched. -/
theorem C126_raises (E : Mpl) {fname save_path : String} (hd : IsDir save_path) (hn : IsName fname) (close_fig : Bool)
    (kw : List (String × String)) {s : Session} {f : List ℕ} {rest : List (List ℕ)} (hf : s.figs = f :: rest)
    {e : Err} {left : Option String}
    (h : E.render (save_path ++ "/" ++ fname) kw s.rc (f.reverse.map s.axes) = .error (e, left)) :
    ∃ s', saveFigure E fname save_path close_fig kw s = (.error e, s') ∧
      Written s s' (save_path ++ "/" ++ fname) left (f :: rest) := by
  have hp : target s.rc kw (joinPath save_path fname) = save_path ++ "/" ++ fname := by
    rw [joinPath_plain hd hn.1, target_name _ _ hn]
  refine ⟨_, (saveFigure_run E close_fig kw hf hp).2 e left h, rfl, rfl, hf, by simp, fun q hq => by simp [hq]⟩

/-- An absolute file name is used as it is: `save_path` is ignored. -/
theorem C126_absolute (E : Mpl) {fname save_path d n : String} (hn : IsName n) (hd : IsDir d)
    (ha : d.toList.head? = some '/') (hfn : fname = d ++ "/" ++ n) (close_fig : Bool) (kw : List (String × String))
    {s : Session} {f : List ℕ} {rest : List (List ℕ)} (hf : s.figs = f :: rest)
    {pic : String} (h : E.render fname kw s.rc (f.reverse.map s.axes) = .ok pic) :
    ∃ s', saveFigure E fname save_path close_fig kw s = (.ok (), s') ∧
      Written s s' fname (some pic) (if close_fig then rest else f :: rest) := by
  have hj : joinPath save_path fname = fname := by
    obtain ⟨comps, h0, hc, e⟩ := hd
    rcases e with e | e
    · obtain ⟨ch, t, h1, h2⟩ := intercalate_head h0 hc
      rw [e, h1] at ha
      exact absurd (by simpa using ha) h2
    · have e' : fname.toList = '/' :: List.intercalate ['/'] (comps ++ [n.toList]) := by
        rw [hfn, intercalate_snoc h0]
        simp [e]
      have := parse_abs (d := fname) (comps := comps ++ [n.toList]) (by simp)
        (by intro c hc'; rcases List.mem_append.1 hc' with h | h
            · exact hc c h
            · rw [List.mem_singleton.1 h]; exact hn.1) e'
      apply String.toList_injective
      unfold joinPath
      rw [this]
      simp [PPath.join, PPath.str, e']
  have hp : target s.rc kw (joinPath save_path fname) = fname := by
    rw [hj, hfn, target_name _ _ hn]
  refine ⟨_, (saveFigure_run E close_fig kw hf hp).1 pic h, rfl, rfl, rfl, by simp, fun q hq => by simp [hq]⟩

/-- A user's script draws a new figure with the axes `X`. -/
def drawNew (X : List Axes) : PyM Session Unit := PyM.modify fun s =>
  { s with
    figs := (List.range' s.next X.length).reverse :: s.figs
    axes := fun i => if i < s.next then s.axes i else X.getD (i - s.next) {}
    next := s.next + X.length }

/-- A script that draws figures and saves each one in the directory `d`. -/
def script (E : Mpl) (d : String) (close_fig : Bool) (kw : List (String × String)) :
    List (String × List Axes) → PyM Session Unit
  | [] => pure ()
  | j :: js => do
    drawNew j.2
    saveFigure E j.1 d close_fig kw
    script E d close_fig kw js

theorem drawNew_current (X : List Axes) (s : Session) :
    ((List.range' s.next X.length).reverse.reverse.map
      fun i => if i < s.next then s.axes i else X.getD (i - s.next) {}) = X := by
  rw [List.reverse_reverse]
  apply List.ext_getElem
  · simp
  · intro i h1 h2
    simp [List.getD_eq_getElem?_getD, List.getElem?_eq_getElem h2]

/-- **C126.** A script that draws and saves any number of figures under different names: afterwards every file holds its
figure, no other file has changed, and the figures left open are those that were open before, together with all the
figures of the script if they are not closed. -/
theorem C126_script (E : Mpl) {d : String} (hd : IsDir d) (close_fig : Bool) (kw : List (String × String))
    (pic : String → String) (jobs : List (String × List Axes)) (s : Session) (hn : ∀ j ∈ jobs, IsName j.1)
    (hdup : (jobs.map Prod.fst).Nodup)
    (hr : ∀ j ∈ jobs, E.render (d ++ "/" ++ j.1) kw s.rc j.2 = .ok (pic j.1)) :
    ∃ s', script E d close_fig kw jobs s = (.ok (), s') ∧ s'.rc = s.rc ∧
      (∀ j ∈ jobs, s'.files (d ++ "/" ++ j.1) = some (pic j.1)) ∧
      (∀ q, (∀ j ∈ jobs, q ≠ d ++ "/" ++ j.1) → s'.files q = s.files q) ∧
      (close_fig = true → s'.figs = s.figs) ∧
      (close_fig = false → s'.figs.length = s.figs.length + jobs.length) := by
  induction jobs generalizing s with
  | nil => exact ⟨s, rfl, rfl, by simp, by simp, by simp, by simp⟩
  | cons j js ih =>
    rw [List.map_cons, List.nodup_cons] at hdup
    have hc := drawNew_current j.2 s
    obtain ⟨s1, e1, w1, -, w3, w4, w5⟩ := C126_saves E hd (hn j (by simp)) close_fig kw
      (s := (drawNew j.2 s).2) (f := (List.range' s.next j.2.length).reverse) (rest := s.figs) rfl
      (by show E.render _ kw s.rc (List.map (fun i => if i < s.next then s.axes i else j.2.getD (i - s.next) {}) _) = _
          rw [hc]; exact hr j (by simp))
    obtain ⟨s2, e2, v1, v2, v3, v4, v5⟩ := ih s1 (fun x hx => hn x (by simp [hx])) hdup.2
      (fun x hx => by rw [w1]; exact hr x (by simp [hx]))
    have hne : ∀ x ∈ js, d ++ "/" ++ j.1 ≠ d ++ "/" ++ x.1 := fun x hx e =>
      hdup.1 (List.mem_map.2 ⟨x, hx, (file_inj e).symm⟩)
    refine ⟨s2, ?_, by rw [v1, w1]; rfl, ?_, ?_, ?_, ?_⟩
    · show (drawNew j.2 >>= fun _ => saveFigure E j.1 d close_fig kw >>= fun _ => script E d close_fig kw js) s = _
      rw [PyM.bind_run]
      show (saveFigure E j.1 d close_fig kw >>= fun _ => script E d close_fig kw js) (drawNew j.2 s).2 = _
      rw [PyM.bind_run, e1]
      exact e2
    · intro x hx
      rcases List.mem_cons.1 hx with rfl | hx
      · rw [v3 _ hne, w4]
      · exact v2 x hx
    · intro q hq
      rw [v3 q fun x hx => hq x (by simp [hx]), w5 q (hq j (by simp))]
      rfl
    · intro h
      rw [v4 h, w3, if_pos h]
    · intro h
      rw [v5 h, w3, if_neg (by simp [h]), List.length_cons, List.length_cons]
      omega

/-- C126, as claimed: the only file that changes is one in the directory `save_path`. -/
def C126_inside_claim : Prop :=
  ∀ (E : Mpl) (fname save_path : String) (s s' : Session), IsDir save_path → s.figs ≠ [] →
    saveFigure E fname save_path true [] s = (.ok (), s') →
    ∀ q, s'.files q ≠ s.files q → ∃ n, q = save_path ++ "/" ++ n

/-- C126, as claimed: figures saved under different names are all there afterwards. -/
def C126_names_claim : Prop :=
  ∀ (E : Mpl) (d : String) (jobs : List (String × List Axes)) (s s' : Session), IsDir d →
    (∀ j ∈ jobs, IsComp j.1.toList) → (jobs.map Prod.fst).Nodup → script E d true [] jobs s = (.ok (), s') →
    ∀ j ∈ jobs, ∃ q pic, E.render q [] s.rc j.2 = .ok pic ∧ s'.files q = some pic

/-- A renderer that writes the number of axes. -/
def countMpl : Mpl := ⟨fun _ => none, fun _ _ _ X => .ok (toString X.length), fun _ => none⟩

/-- A session with one open figure and no files. -/
def oneFig : Session := ⟨fun _ => .str "png", [[]], fun _ => {}, 0, fun _ => none⟩

theorem figures_dir : IsDir "figures" := ⟨["figures".toList], by simp, by simp [IsComp], .inl (by simp [List.intercalate])⟩

theorem C126_inside_claim_refuted : ¬ C126_inside_claim := by
  intro h
  obtain ⟨n, hn⟩ := h countMpl "/x.png" "figures" oneFig _ figures_dir (by simp [oneFig])
    ((saveFigure_run countMpl true [] (s := oneFig) rfl (p := "/x.png") (by decide)).1 "0" rfl) "/x.png" (by simp [oneFig])
  have := congrArg String.toList hn
  simp at this

theorem C126_names_claim_refuted : ¬ C126_names_claim := by
  intro h
  have := h countMpl "figures" [("a", [{}]), ("a.png", [])] oneFig
    (script countMpl "figures" true [] [("a", [{}]), ("a.png", [])] oneFig).2 figures_dir (by simp [IsComp]) (by simp)
    (Prod.ext rfl rfl) ("a", [{}]) (by simp)
  obtain ⟨q, pic, h1, h2⟩ := this
  have e : (script countMpl "figures" true [] [("a", [{}]), ("a.png", [])] oneFig).2.files =
      Function.update (Function.update (fun _ => none) "figures/a.png" (some "1")) "figures/a.png" (some "0") := rfl
  rw [e] at h2
  have h3 : pic = "1" := by
    have : countMpl.render q [] oneFig.rc [{}] = .ok "1" := rfl
    rw [this] at h1
    exact (Except.ok.inj h1).symm
  subst h3
  by_cases hq : q = "figures/a.png" <;> simp [hq] at h2

/-! ## C125: importing the module -/

/-- A step that changes no file but `p`. -/
def Frame {α : Type} (p : String) (m : PyM Session α) : Prop := ∀ s q, q ≠ p → (m s).2.files q = s.files q

theorem Frame.bind {α β : Type} {p : String} {m : PyM Session α} {g : α → PyM Session β} (hm : Frame p m)
    (hg : ∀ a, Frame p (g a)) : Frame p (m >>= g) := by
  intro s q hq
  rw [PyM.bind_run]
  have h1 := hm s q hq
  rcases h : m s with ⟨r, s1⟩
  rw [h] at h1
  cases r with
  | error e => exact h1
  | ok a => exact (hg a s1 q hq).trans h1

theorem Frame.same {α : Type} {p : String} {m : PyM Session α} (h : ∀ s, (m s).2.files = s.files) : Frame p m :=
  fun s q _ => by rw [h s]

theorem raiseSome_files (o : Option Err) (s : Session) : (raiseSome o s).2 = s := by cases o <;> rfl

theorem frame_draw (p : String) (A : Artist) : Frame p (draw A) := by
  refine Frame.bind (Frame.bind (.same fun _ => rfl) fun _ => Frame.bind (.same fun _ => rfl) fun s => .same ?_)
    fun a => .same fun _ => rfl
  intro s1
  rcases h : s.figs.headD [] with _ | ⟨a, l⟩ <;> rfl

theorem frame_plot (E : Mpl) (p : String) (x y : List ℝ) (l : String) : Frame p (plot E x y l) :=
  Frame.bind (.same fun _ => rfl) fun s => Frame.bind (.same fun s => by rw [raiseSome_files]) fun _ => frame_draw p _

theorem frame_savefig (E : Mpl) {p : String} {kw : List (String × String)} (h : ∀ rc, target rc kw p = p) :
    Frame p (savefig E p kw) := by
  refine Frame.bind (.same fun _ => rfl) fun _ => Frame.bind (.same fun _ => rfl) fun s => Frame.bind ?_
    fun _ => .same fun s => by rw [raiseSome_files]
  intro s1 q hq
  rw [h]
  simp [hq]

theorem frame_unlink (E : Mpl) (p : String) : Frame p (unlinkIfExists E p) := by
  intro s q hq
  unfold unlinkIfExists
  split
  · split
    · rfl
    · simp [hq]
  · rfl

theorem frame_tryLatex (E : Mpl) {p : String} (h : ∀ rc kw, target rc kw p = p) : Frame p (tryLatex E p) :=
  Frame.bind (.same fun _ => rfl) fun _ => Frame.bind (frame_plot E p _ _ _) fun _ =>
    Frame.bind (frame_plot E p _ _ _) fun _ => Frame.bind (frame_savefig E fun rc => h rc _) fun _ =>
      Frame.bind (frame_unlink E p) fun _ => .same fun _ => rfl

theorem test_name : IsName ".test_fig.png" :=
  ⟨by simp [IsComp], ".test_fig".toList, "png".toList, by decide, by decide, by decide, 't', by decide, by decide⟩

theorem test_path {cwd : String} (hd : IsDir cwd) : joinPath cwd ".test_fig.png" = cwd ++ "/" ++ ".test_fig.png" :=
  joinPath_plain hd test_name.1

theorem check_state (E : Mpl) (cwd : String) (s : Session) :
    (checkLatex E cwd s).2 =
      { (tryLatex E (joinPath cwd ".test_fig.png") s).2 with
        rc := s.rc
        figs := [] } := by
  unfold checkLatex tryFinally tryExcept
  rcases h : tryLatex E (joinPath cwd ".test_fig.png") s with ⟨r, s1⟩
  cases r with
  | ok b => rfl
  | error e =>
    by_cases he : e ∈ [Err.runtimeError, Err.fileNotFoundError]
    · simp [he]
    · simp [he]

theorem check_result (E : Mpl) (cwd : String) (s : Session) :
    (checkLatex E cwd s).1 = match (tryLatex E (joinPath cwd ".test_fig.png") s).1 with
      | .ok b => .ok b
      | .error e => if e = .runtimeError ∨ e = .fileNotFoundError then .ok false else .error e := by
  unfold checkLatex tryFinally tryExcept
  rcases h : tryLatex E (joinPath cwd ".test_fig.png") s with ⟨r, s1⟩
  cases r with
  | ok b => rfl
  | error e =>
    by_cases he : e = .runtimeError ∨ e = .fileNotFoundError
    · simp [he]
    · simp [he]

/-- **C125.** Whatever happens during the LaTeX check, and whatever it raises, afterwards matplotlib's settings are
those from before, no figure is open and the only file that can have changed is `.test_fig.png` in the working
directory. -/
theorem C125_restored (E : Mpl) {cwd : String} (hd : IsDir cwd) (s : Session) :
    (checkLatex E cwd s).2.rc = s.rc ∧ (checkLatex E cwd s).2.figs = [] ∧
      ∀ q, q ≠ cwd ++ "/.test_fig.png" → (checkLatex E cwd s).2.files q = s.files q := by
  rw [check_state]
  refine ⟨rfl, rfl, fun q hq => ?_⟩
  refine frame_tryLatex E (p := joinPath cwd ".test_fig.png") (fun rc kw => ?_) s q ?_
  · rw [test_path hd, target_name rc kw test_name]
  · rw [test_path hd, String.append_assoc]
    exact hq

/-- Successive steps. -/
theorem bind_ok_iff {α β : Type} {m : PyM Session α} {g : α → PyM Session β} {s : Session} {b : β} :
    ((m >>= g) s).1 = .ok b ↔ ∃ a, (m s).1 = .ok a ∧ (g a (m s).2).1 = .ok b := by
  rw [PyM.bind_run]
  rcases m s with ⟨r, s1⟩
  cases r <;> simp

theorem tryLatex_ok {E : Mpl} {p : String} {s : Session} {b : Bool} (h : (tryLatex E p s).1 = .ok b) :
    b = true ∧ (tryLatex E p s).2.files p = none := by
  have key : ∀ (m : PyM Session Unit) (s : Session), ((m >>= fun _ => (do
      unlinkIfExists E p
      return true : PyM Session Bool)) s).1 = .ok b → b = true ∧ ((m >>= fun _ => (do
      unlinkIfExists E p
      return true : PyM Session Bool)) s).2.files p = none := by
    intro m s h
    rw [PyM.bind_run] at h ⊢
    rcases hm : m s with ⟨r, s1⟩
    rw [hm] at h
    cases r with
    | error e => simp at h
    | ok a =>
      dsimp only at h ⊢
      rw [PyM.bind_run] at h ⊢
      unfold unlinkIfExists at h ⊢
      by_cases hf : (s1.files p).isSome
      · simp only [hf, if_true] at h ⊢
        rcases hu : E.unlinkErr s1 with _ | e
        · rw [hu] at h
          exact ⟨by simpa using h.symm, by simp⟩
        · rw [hu] at h
          simp at h
      · simp only [hf] at h ⊢
        exact ⟨by simpa using h.symm, by simpa using hf⟩
  unfold tryLatex at h ⊢
  rw [PyM.bind_run] at h ⊢
  dsimp only [rcUpdate, PyM.modify_run] at h ⊢
  rw [PyM.bind_run] at h ⊢
  rcases h1 : plot E [0] [1] "$a_\\text{foo} = \\lambda$" { s with
    rc := fun k => (List.lookup k [("text.usetex", Rc.bool true)]).getD (s.rc k) } with ⟨r, s1⟩
  rw [h1] at h
  cases r with
  | error e => simp at h
  | ok a =>
    dsimp only at h ⊢
    rw [PyM.bind_run] at h ⊢
    rcases h2 : plot E [0, 1] [1, 2] "Something" s1 with ⟨r, s2⟩
    rw [h2] at h
    cases r with
    | error e => simp at h
    | ok a => exact key _ _ h

/-- **C125.** If the check finds LaTeX, its file is gone. -/
theorem C125_true (E : Mpl) {cwd : String} (hd : IsDir cwd) {s : Session} (h : (checkLatex E cwd s).1 = .ok true) :
    (checkLatex E cwd s).2.files (cwd ++ "/.test_fig.png") = none := by
  rw [check_result] at h
  rw [check_state]
  have e : cwd ++ "/.test_fig.png" = joinPath cwd ".test_fig.png" := by
    rw [test_path hd, String.append_assoc]
    rfl
  rw [e]
  rcases h1 : (tryLatex E (joinPath cwd ".test_fig.png") s).1 with e | b
  · rw [h1] at h
    dsimp only at h
    split at h <;> simp at h
  · exact (tryLatex_ok h1).2

/-- **C125.** `RuntimeError` and `FileNotFoundError` never leave the check. -/
theorem C125_caught (E : Mpl) (cwd : String) {s : Session} {e : Err} (h : (checkLatex E cwd s).1 = .error e) :
    e ≠ .runtimeError ∧ e ≠ .fileNotFoundError := by
  rw [check_result] at h
  rcases h1 : (tryLatex E (joinPath cwd ".test_fig.png") s).1 with e' | b
  · rw [h1] at h
    dsimp only at h
    split at h
    · simp at h
    · rename_i hn
      cases h
      exact not_or.1 hn
  · rw [h1] at h
    simp at h

/-- The answer of the check for a failure `e`. -/
def answer (e : Err) : Py Bool := if e = .runtimeError ∨ e = .fileNotFoundError then .ok false else .error e

theorem gca_ok (s : Session) : ∃ a s1, gca s = (.ok a, s1) := by
  have : gca s = axesOf ((if s.figs = [] then [[]] else s.figs).headD [])
      { s with figs := if s.figs = [] then [[]] else s.figs } := rfl
  rw [this]
  rcases (if s.figs = [] then [[]] else s.figs).headD [] with _ | ⟨a, t⟩
  · exact ⟨_, _, rfl⟩
  · exact ⟨_, _, rfl⟩

theorem plot_ok {E : Mpl} (h : ∀ s, E.plotErr s = none) (x y : List ℝ) (l : String) (s : Session) :
    (plot E x y l s).1 = .ok () := by
  have : plot E x y l s = draw { kind := "plot", x := x, y := y, label := some l } s := by
    unfold plot
    rw [PyM.get_bind_run, h]
    rfl
  rw [this]
  obtain ⟨a, s1, e⟩ := gca_ok s
  unfold draw
  rw [PyM.bind_run, e]
  rfl

theorem tryLatex_save {E : Mpl} (h : ∀ s, E.plotErr s = none) (p : String) (s : Session) :
    ∃ s1, tryLatex E p s = (do
      savefig E p [("bbox_inches", "tight")]
      unlinkIfExists E p
      return true : PyM Session Bool) s1 := by
  unfold tryLatex
  rw [PyM.bind_run]
  dsimp only [rcUpdate, PyM.modify_run]
  rw [PyM.bind_run]
  generalize ({ s with rc := fun k => (List.lookup k [("text.usetex", Rc.bool true)]).getD (s.rc k) } : Session) = s0
  have h1 := plot_ok h [0] [1] "$a_\\text{foo} = \\lambda$" s0
  rcases e1 : plot E [0] [1] "$a_\\text{foo} = \\lambda$" s0 with ⟨r, s1⟩
  rw [e1] at h1
  cases h1
  dsimp only
  rw [PyM.bind_run]
  have h2 := plot_ok h [0, 1] [1, 2] "Something" s1
  rcases e2 : plot E [0, 1] [1, 2] "Something" s1 with ⟨r, s2⟩
  rw [e2] at h2
  cases h2
  exact ⟨s2, rfl⟩

/-- **C125.** The check says yes if nothing fails. -/
theorem C125_works (E : Mpl) (cwd : String) (s : Session) (hp : ∀ s, E.plotErr s = none)
    (hr : ∀ p kw rc X, ∃ pic, E.render p kw rc X = .ok pic) (hu : ∀ s, E.unlinkErr s = none) :
    (checkLatex E cwd s).1 = .ok true := by
  rw [check_result]
  obtain ⟨s1, e⟩ := tryLatex_save hp (joinPath cwd ".test_fig.png") s
  rw [e]
  generalize joinPath cwd ".test_fig.png" = p
  have : ((savefig E p [("bbox_inches", "tight")] >>= fun _ => (do
      unlinkIfExists E p
      return true : PyM Session Bool)) s1).1 = .ok true := by
    rw [bind_ok_iff]
    refine ⟨(), ?_, ?_⟩
    · simp only [savefig, gcf, PyM.modify_bind_run, PyM.get_bind_run]
      generalize target _ _ _ = p'
      obtain ⟨pic, hpic⟩ := hr p' [("bbox_inches", "tight")] s1.rc
        (current { s1 with figs := if s1.figs = [] then [[]] else s1.figs })
      rw [hpic]
      rfl
    · rw [bind_ok_iff]
      refine ⟨(), ?_, rfl⟩
      unfold unlinkIfExists
      split
      · rw [hu]
      · rfl
  rw [this]

/-- **C125.** If the picture cannot be written the answer is no for `RuntimeError` and `FileNotFoundError`; anything else
is raised by the import. -/
theorem C125_save_fails (E : Mpl) (cwd : String) (s : Session) {e : Err} (hp : ∀ s, E.plotErr s = none)
    (hr : ∀ p kw rc X, ∃ left, E.render p kw rc X = .error (e, left)) :
    (checkLatex E cwd s).1 = answer e := by
  rw [check_result]
  obtain ⟨s1, e1⟩ := tryLatex_save hp (joinPath cwd ".test_fig.png") s
  rw [e1]
  generalize joinPath cwd ".test_fig.png" = p
  have : ((savefig E p [("bbox_inches", "tight")] >>= fun _ => (do
      unlinkIfExists E p
      return true : PyM Session Bool)) s1).1 = .error e := by
    rw [PyM.bind_run]
    simp only [savefig, gcf, PyM.modify_bind_run, PyM.get_bind_run]
    generalize target _ _ _ = p'
    obtain ⟨left, hl⟩ := hr p' [("bbox_inches", "tight")] s1.rc
      (current { s1 with figs := if s1.figs = [] then [[]] else s1.figs })
    rw [hl]
    rfl
  rw [this]
  rfl

/-- **C125.** The same if the first drawing call fails. -/
theorem C125_plot_fails (E : Mpl) (cwd : String) (s : Session) {e : Err} (hp : ∀ s, E.plotErr s = some e) :
    (checkLatex E cwd s).1 = answer e := by
  rw [check_result]
  have : (tryLatex E (joinPath cwd ".test_fig.png") s).1 = .error e := by
    unfold tryLatex
    rw [PyM.bind_run]
    dsimp only [rcUpdate, PyM.modify_run]
    rw [PyM.bind_run]
    simp only [plot, PyM.get_bind_run, hp]
    rfl
  rw [this]
  rfl

/-- The settings of the package (`LaTeX` found or not). -/
def settings (latex : Bool) : String → Option Rc
  | "mathtext.fontset" => some (.str "stix")
  | "font.family" => some (.str "STIXGeneral")
  | "axes.labelsize" | "xtick.labelsize" | "ytick.labelsize" => some (.num 14)
  | "axes.titlesize" => some (.num 26)
  | "legend.fontsize" | "font.size" => some (.num 16)
  | "axes.titlepad" | "axes.labelpad" => some (.num 1)
  | "savefig.facecolor" => some (.str "white")
  | "text.usetex" => some (.bool latex)
  | "text.latex.preamble" =>
    some (.str (if latex then "\\usepackage{bm} \\usepackage{amsfonts} \\usepackage{amsmath}" else ""))
  | _ => none

theorem params_lookup (latex : Bool) (k : String) : (mudPlotParams latex).lookup k = settings latex k := by
  unfold settings
  split
  all_goals first
    | (simp [mudPlotParams, List.lookup, preamble]; done)
    | (rw [List.lookup_eq_none_iff]; simp_all [mudPlotParams])

/-- **C125.** A successful import sets the thirteen settings of the package, `text.usetex` according to the check, and no
other; no figure is open afterwards. If the import fails the settings are untouched. -/
theorem C125_import (E : Mpl) {cwd : String} (hd : IsDir cwd) (s : Session) :
    (∀ b s', importPlot E cwd s = (.ok b, s') →
      (∀ k, s'.rc k = (settings b k).getD (s.rc k)) ∧ s'.figs = [] ∧
      (∀ q, q ≠ cwd ++ "/.test_fig.png" → s'.files q = s.files q) ∧
      (b = true → s'.files (cwd ++ "/.test_fig.png") = none)) ∧
    (∀ e s', importPlot E cwd s = (.error e, s') → s'.rc = s.rc ∧ s'.figs = [] ∧
      e ≠ .runtimeError ∧ e ≠ .fileNotFoundError) := by
  obtain ⟨h1, h2, h3⟩ := C125_restored E hd s
  have h4 := C125_true E hd (s := s)
  have h5 := fun e => C125_caught E cwd (s := s) (e := e)
  unfold importPlot
  rw [PyM.bind_run]
  rcases h0 : checkLatex E cwd s with ⟨r, s1⟩
  rw [h0] at h1 h2 h3 h4
  rw [h0] at h5
  cases r with
  | ok b =>
    refine ⟨fun b' s' h => ?_, fun e s' h => by simp [PyM.bind_run, rcUpdate] at h⟩
    simp only [PyM.bind_run, rcUpdate, PyM.modify_run, PyM.pure_run, Prod.mk.injEq, Except.ok.injEq] at h
    obtain ⟨rfl, rfl⟩ := h
    refine ⟨fun k => ?_, h2, h3, fun hb => h4 (by rw [hb])⟩
    dsimp only
    rw [params_lookup, h1]
  | error e =>
    refine ⟨fun b' s' h => by simp at h, fun e s' h => ?_⟩
    simp only [Prod.mk.injEq, Except.error.injEq] at h
    obtain ⟨rfl, rfl⟩ := h
    exact ⟨h1, h2, h5 e rfl⟩

/-- C125, as claimed: an import leaves the user's open figures alone. -/
def C125_figures_claim : Prop :=
  ∀ (E : Mpl) (cwd : String) (s s' : Session) (b : Bool), IsDir cwd → importPlot E cwd s = (.ok b, s') → s'.figs = s.figs

/-- C125, as claimed: an import leaves the files as they were. -/
def C125_files_claim : Prop :=
  ∀ (E : Mpl) (cwd : String) (s s' : Session) (b : Bool), IsDir cwd → importPlot E cwd s = (.ok b, s') →
    s'.files = s.files

theorem import_ok {E : Mpl} {cwd : String} {s : Session} {b : Bool} (h : (checkLatex E cwd s).1 = .ok b) :
    importPlot E cwd s = (.ok b, (importPlot E cwd s).2) := by
  refine Prod.ext ?_ rfl
  unfold importPlot
  rw [PyM.bind_run]
  rcases h0 : checkLatex E cwd s with ⟨r, s1⟩
  rw [h0] at h
  cases h
  rfl

theorem C125_figures_claim_refuted : ¬ C125_figures_claim := by
  intro h
  have hi := import_ok (C125_works countMpl "figures" oneFig (fun _ => rfl) (fun _ _ _ _ => ⟨_, rfl⟩) fun _ => rfl)
  have h1 := h countMpl "figures" oneFig _ true figures_dir hi
  rw [((C125_import countMpl figures_dir oneFig).1 _ _ hi).2.1] at h1
  simp [oneFig] at h1

theorem C125_files_claim_refuted : ¬ C125_files_claim := by
  intro h
  have hi := import_ok (C125_works countMpl "figures" { oneFig with files := fun _ => some "mine" } (fun _ => rfl)
    (fun _ _ _ _ => ⟨_, rfl⟩) fun _ => rfl)
  have h1 := h countMpl "figures" _ _ true figures_dir hi
  have h2 := ((C125_import countMpl figures_dir _).1 _ _ hi).2.2.2 rfl
  rw [h1] at h2
  simp at h2

/-- **C125**: when the check finds LaTeX, figures and files are left alone exactly if no figure was open and there was no
file `.test_fig.png` in the working directory. -/
theorem C125_session_exact (E : Mpl) {cwd : String} (hd : IsDir cwd) {s s' : Session}
    (h : importPlot E cwd s = (.ok true, s')) :
    (s'.figs = s.figs ↔ s.figs = []) ∧ (s'.files = s.files ↔ s.files (cwd ++ "/.test_fig.png") = none) := by
  obtain ⟨-, h2, h3, h4⟩ := (C125_import E hd s).1 _ _ h
  refine ⟨by rw [h2]; exact eq_comm, fun e => by rw [← e]; exact h4 rfl, fun e => funext fun q => ?_⟩
  by_cases hq : q = cwd ++ "/.test_fig.png"
  · rw [hq, h4 rfl, e]
  · exact h3 q hq

/-! ## C127: `plot_1D_vecs` -/

/-- The options of the `i`-th vector: the caller's, with the `i`-th marker if markers are given. -/
def optsFor (markers : Option (List String)) (kw : List (String × String)) (i : ℕ) : List (String × String) :=
  match markers with
  | none => kw
  | some ms => ("marker", ms.getD i "") :: kw.filter fun e => e.1 ≠ "marker"

/-- The points of the `i`-th vector: its entries over their positions `0, 1, ...`, labelled `p^(i+1)`. -/
def points (markers : Option (List String)) (kw : List (String × String)) (i : ℕ) (v : List ℝ) : Artist where
  kind := "scatter"
  x := (List.range v.length).map fun k : ℕ => (k : ℝ)
  y := v
  label := some ("$p^{(" ++ toString (i + 1) ++ ")}$")
  opts := optsFor markers kw i

theorem dset_dset (kw : List (String × String)) (k v w : String) : dset (dset kw k v) k w = dset kw k w := by
  simp [dset, List.filter_filter]

/-- Axes with more artists. -/
def Axes.add (X : Axes) (l : List Artist) : Axes := { X with artists := X.artists ++ l }

theorem draw_run (A : Artist) {s : Session} {a : ℕ} {t : List ℕ} {rest : List (List ℕ)} (h : s.figs = (a :: t) :: rest) :
    draw A s = (.ok (), { s with axes := Function.update s.axes a ((s.axes a).add [A]) }) := by
  obtain ⟨rc, figs, axes, next, files⟩ := s
  cases h
  rfl

theorem plotVecs_none (kw : List (String × String)) (vs : List (List ℝ)) (i : ℕ) {s : Session} {a : ℕ} {t : List ℕ}
    {rest : List (List ℕ)} (h : s.figs = (a :: t) :: rest) :
    plotVecs none i kw vs s = (.ok (), { s with
      axes := Function.update s.axes a ((s.axes a).add (vs.mapIdx fun j v => points none kw (i + j) v)) }) := by
  induction vs generalizing i s with
  | nil =>
    simp [plotVecs, Axes.add]
  | cons v vs ih =>
    unfold plotVecs
    simp only [vecOpts, PyM.lift_ok_bind]
    rw [PyM.bind_run, draw_run _ h]
    dsimp only
    rw [ih (i + 1) (by exact h)]
    simp only [Function.update_self, Function.update_idem, List.mapIdx_cons, Axes.add, List.append_assoc,
      List.singleton_append, Nat.add_zero, points, optsFor]
    simp only [Nat.add_assoc, Nat.add_comm 1]

theorem plotVecs_some (ms : List String) (kw : List (String × String)) (vs : List (List ℝ)) (i : ℕ) (hi : i ≤ ms.length)
    (o : List (String × String)) (ho : ∀ m, dset o "marker" m = dset kw "marker" m) {s : Session}
    {a : ℕ} {t : List ℕ} {rest : List (List ℕ)} (h : s.figs = (a :: t) :: rest) :
    plotVecs (some ms) i o vs s = (if i + vs.length ≤ ms.length then .ok () else .error .indexError, { s with
      axes := Function.update s.axes a ((s.axes a).add
        ((vs.take (ms.length - i)).mapIdx fun j v => points (some ms) kw (i + j) v)) }) := by
  induction vs generalizing i o s with
  | nil =>
    simp [plotVecs, Axes.add, hi]
  | cons v vs ih =>
    unfold plotVecs
    by_cases hm : i < ms.length
    · simp only [vecOpts, List.getElem?_eq_getElem hm, PyM.lift_ok_bind]
      rw [PyM.bind_run, draw_run _ h]
      dsimp only
      rw [ih (i + 1) hm (dset o "marker" ms[i]) (fun m => by rw [dset_dset, ho]) (by exact h)]
      have e1 : ms.length - i = ms.length - (i + 1) + 1 := by omega
      have e2 : (i + 1 + vs.length ≤ ms.length) ↔ (i + (v :: vs).length ≤ ms.length) := by
        rw [List.length_cons]; omega
      have hf : (o.filter fun e => decide (e.1 ≠ "marker")) = kw.filter fun e => decide (e.1 ≠ "marker") :=
        (List.cons.inj (ho "")).2
      rw [e1, List.take_succ_cons]
      simp only [Function.update_self, Function.update_idem, List.mapIdx_cons, Axes.add, List.append_assoc,
        List.singleton_append, Nat.add_zero, points, optsFor, hf, dset, List.getD_eq_getElem?_getD,
        List.getElem?_eq_getElem hm, Option.getD_some, e2]
      simp only [Nat.add_assoc, Nat.add_comm 1]
    · have e : i = ms.length := by omega
      subst e
      simp [vecOpts, PyM.bind_run, Axes.add]

/-- The axes labels. -/
def Axes.named (X : Axes) : Axes := { X with xlabel := "i", ylabel := "$p^{{(l)}}_i$", legend := true }

/-- Are there enough markers? -/
def Enough (markers : Option (List String)) (n : ℕ) : Prop := ∀ ms, markers = some ms → n ≤ ms.length

theorem plotVecs_enough {markers : Option (List String)} (kw : List (String × String)) {vs : List (List ℝ)}
    (hm : Enough markers vs.length) {s : Session} {a : ℕ} {t : List ℕ} {rest : List (List ℕ)}
    (h : s.figs = (a :: t) :: rest) :
    plotVecs markers 0 kw vs s = (.ok (), { s with
      axes := Function.update s.axes a ((s.axes a).add (vs.mapIdx fun j v => points markers kw j v)) }) := by
  cases markers with
  | none => simpa using plotVecs_none kw vs 0 h
  | some ms =>
    have h1 := hm ms rfl
    have := plotVecs_some ms kw vs 0 (Nat.zero_le _) kw (fun _ => rfl) h
    rw [if_pos (by omega), Nat.sub_zero, List.take_of_length_le h1] at this
    simpa using this

/-- **C127.** Without axes `plot_1D_vecs` opens a new figure with one set of axes, which it returns; on it are, in order,
the points of every vector, and nothing else; every other figure and set of axes is as before. -/
theorem C127_new (vecs : List (List ℝ)) (markers : Option (List String)) (label : Bool) (kw : List (String × String))
    (s : Session) (hm : Enough markers vecs.length) :
    ∃ s', plot1DVecs vecs markers none label kw s = (.ok s.next, s') ∧ s'.figs = [s.next] :: s.figs ∧
      (s'.axes s.next).artists = vecs.mapIdx (fun i v => points markers kw i v) ∧
      (s'.axes s.next).legend = label ∧ (s'.axes s.next).xlabel = (if label then "i" else "") ∧
      (∀ a, a ≠ s.next → s'.axes a = s.axes a) ∧ s'.rc = s.rc ∧ s'.files = s.files := by
  obtain ⟨s1, e1, hs1⟩ : ∃ s1, axesFor none s = (.ok s.next, s1) ∧ s1 = { s with
      figs := [s.next] :: s.figs
      axes := Function.update s.axes s.next {}
      next := s.next + 1 } := ⟨_, rfl, rfl⟩
  have e2 := plotVecs_enough kw hm (s := s1) (a := s.next) (t := []) (rest := s.figs) (by rw [hs1])
  unfold plot1DVecs
  rw [PyM.bind_run, e1]
  dsimp only
  rw [PyM.bind_run, e2, hs1]
  cases label
  · refine ⟨_, rfl, rfl, by simp [Axes.add], by simp [Axes.add], by simp [Axes.add], fun a ha => by simp [ha], rfl, rfl⟩
  · refine ⟨_, rfl, rfl, by simp [Axes.add], by simp, by simp, fun a ha => by simp [ha], rfl, rfl⟩

/-- **C127.** With axes `ax`, the points go to the current axes `c` of the session and the labels to `ax`. -/
theorem C127_given (vecs : List (List ℝ)) (markers : Option (List String)) (ax : ℕ) (label : Bool)
    (kw : List (String × String)) {s : Session} {c : ℕ} {t : List ℕ} {rest : List (List ℕ)}
    (h : s.figs = (c :: t) :: rest) (hm : Enough markers vecs.length) :
    ∃ s', plot1DVecs vecs markers (some ax) label kw s = (.ok ax, s') ∧ s'.figs = s.figs ∧
      (s'.axes c).artists = (s.axes c).artists ++ vecs.mapIdx (fun i v => points markers kw i v) ∧
      (∀ a, a ≠ c → (s'.axes a).artists = (s.axes a).artists) ∧
      (label = true → (s'.axes ax).xlabel = "i" ∧ (s'.axes ax).legend = true) ∧
      (∀ a, a ≠ c → a ≠ ax → s'.axes a = s.axes a) ∧ s'.rc = s.rc ∧ s'.files = s.files := by
  have e2 := plotVecs_enough kw hm h
  unfold plot1DVecs
  rw [PyM.bind_run]
  show ∃ s', ((plotVecs markers 0 kw vecs >>= fun _ => _) s) = _ ∧ _
  rw [PyM.bind_run, e2]
  cases label
  · refine ⟨_, rfl, rfl, by simp [Axes.add], fun a ha => by simp [ha], by simp, fun a ha _ => by simp [ha], rfl, rfl⟩
  · refine ⟨_, rfl, rfl, ?_, fun a ha => ?_, by simp, fun a ha hx => by simp [ha, hx], rfl, rfl⟩
    · by_cases hx : c = ax
      · subst hx; simp [Axes.add]
      · simp [hx, Axes.add]
    · by_cases hx : a = ax
      · subst hx; simp [ha]
      · simp [hx, ha]

/-- C127, as claimed: the points are drawn on the axes that are passed. -/
def C127_axes_claim : Prop :=
  ∀ (vecs : List (List ℝ)) (ax : ℕ) (s s' : Session) (r : ℕ), (∃ f ∈ s.figs, ax ∈ f) →
    plot1DVecs vecs none (some ax) true [] s = (.ok r, s') →
    (s'.axes ax).artists = (s.axes ax).artists ++ vecs.mapIdx (fun i v => points none [] i v)

theorem C127_axes_claim_refuted : ¬ C127_axes_claim := by
  intro h
  obtain ⟨s', e, -, -, h2, -⟩ := C127_given [[1, 2]] none 0 true []
    (s := ⟨fun _ => .str "png", [[1, 0]], fun _ => {}, 2, fun _ => none⟩) (c := 1) (t := [0]) (rest := []) rfl
    (fun ms h => by cases h)
  have h1 := h _ _ _ _ _ ⟨[1, 0], by simp, by simp⟩ e
  rw [h2 0 (by decide)] at h1
  simp at h1

/-- **C127**: with the current axes, or with none, they are. -/
theorem C127_axes_partial (vecs : List (List ℝ)) {ax r : ℕ} {s s' : Session} {t : List ℕ} {rest : List (List ℕ)}
    (h : s.figs = (ax :: t) :: rest) (hr : plot1DVecs vecs none (some ax) true [] s = (.ok r, s')) :
    (s'.axes ax).artists = (s.axes ax).artists ++ vecs.mapIdx (fun i v => points none [] i v) := by
  obtain ⟨s1, e, -, h1, -⟩ := C127_given vecs none ax true [] h (fun ms h => by cases h)
  rw [e] at hr
  cases hr
  exact h1

/-- **C127.** With fewer markers than vectors `plot_1D_vecs` raises `IndexError` after drawing as many vectors as there
are markers, on axes that stay open and without labels. -/
theorem C127_few_markers (vecs : List (List ℝ)) {ms : List String} (label : Bool) (kw : List (String × String))
    (s : Session) (hm : ms.length < vecs.length) :
    ∃ s', plot1DVecs vecs (some ms) none label kw s = (.error .indexError, s') ∧ s'.figs = [s.next] :: s.figs ∧
      (s'.axes s.next).artists = (vecs.take ms.length).mapIdx (fun i v => points (some ms) kw i v) ∧
      (s'.axes s.next).legend = false ∧ (∀ a, a ≠ s.next → s'.axes a = s.axes a) := by
  obtain ⟨s1, e1, hs1⟩ : ∃ s1, axesFor none s = (.ok s.next, s1) ∧ s1 = { s with
      figs := [s.next] :: s.figs
      axes := Function.update s.axes s.next {}
      next := s.next + 1 } := ⟨_, rfl, rfl⟩
  have e2 := plotVecs_some ms kw vecs 0 (Nat.zero_le _) kw (fun _ => rfl) (s := s1) (a := s.next) (t := [])
    (rest := s.figs) (by rw [hs1])
  rw [if_neg (by omega)] at e2
  unfold plot1DVecs
  rw [PyM.bind_run, e1]
  dsimp only
  rw [PyM.bind_run, e2, hs1]
  exact ⟨_, rfl, rfl, by simp [Axes.add], by simp [Axes.add], fun a ha => by simp [ha]⟩

/-! ## Examples -/

example : IsName "a.png" := ⟨by simp [IsComp], ['a'], ['p', 'n', 'g'], by decide, by decide, by decide, 'a', by decide, by decide⟩
example : IsDir "/home/u/figures" :=
  ⟨["home".toList, "u".toList, "figures".toList], by simp, by simp [IsComp], .inr (by simp [List.intercalate])⟩
example : joinPath "figures//x/./" "a.png" = "figures/x/a.png" := by decide
example : joinPath "figures" "../a.png" = "figures/../a.png" := by decide
example : joinPath "/data" "/tmp/a.png" = "/tmp/a.png" := by decide
example : target (fun _ => .str "png") [] "figures/learned_qoi" = "figures/learned_qoi.png" := by decide
example : target (fun _ => .str "png") [("format", "pdf")] "figures/learned_qoi" = "figures/learned_qoi" := by decide

theorem abc_name : IsName "a.png" :=
  ⟨by simp [IsComp], ['a'], ['p', 'n', 'g'], by decide, by decide, by decide, 'a', by decide, by decide⟩

example := C126_saves countMpl figures_dir abc_name true [] (s := oneFig) rfl rfl
example := C126_raises ⟨fun _ => none, fun _ _ _ _ => .error (.osError, none), fun _ => none⟩ figures_dir abc_name true []
  (s := oneFig) rfl rfl
example := C126_absolute countMpl (save_path := "figures") abc_name (d := "/tmp")
  ⟨["tmp".toList], by simp, by simp [IsComp], .inr (by simp [List.intercalate])⟩ (by decide) rfl true [] (s := oneFig) rfl rfl
example := C126_script countMpl figures_dir true [] (fun n => if n = "a.png" then "1" else "2")
  [("a.png", [{}]), ("b.png", [{}, {}])] oneFig
  (by
    intro j hj
    simp only [List.mem_cons, List.not_mem_nil, or_false] at hj
    rcases hj with rfl | rfl
    · exact abc_name
    · exact ⟨by simp [IsComp], ['b'], ['p', 'n', 'g'], by decide, by decide, by decide, 'b', by decide, by decide⟩)
  (by simp)
  (by
    intro j hj
    simp only [List.mem_cons, List.not_mem_nil, or_false] at hj
    rcases hj with rfl | rfl <;> rfl)
example : ∃ b s', importPlot countMpl "figures" oneFig = (.ok b, s') :=
  ⟨true, _, import_ok (C125_works countMpl "figures" oneFig (fun _ => rfl) (fun _ _ _ _ => ⟨_, rfl⟩) fun _ => rfl)⟩
/-- A machine without LaTeX. -/
def noLatex : Mpl := ⟨fun _ => none, fun _ _ _ _ => .error (.runtimeError, none), fun _ => none⟩
example : (checkLatex noLatex "figures" oneFig).1 = .ok false :=
  C125_save_fails noLatex "figures" oneFig (fun _ => rfl) (fun _ _ _ _ => ⟨none, rfl⟩)
example : (checkLatex ⟨fun _ => some .keyboardInterrupt, countMpl.render, fun _ => none⟩ "figures" oneFig).1 =
    .error .keyboardInterrupt := by
  rw [C125_plot_fails _ _ _ (e := .keyboardInterrupt) fun _ => rfl]
  rfl
example := C127_new [[1, 2], [3]] (some ["o", "x"]) true [("c", "red")] oneFig (fun ms h => by cases h; simp)
example := C127_few_markers [[1, 2], [3]] (ms := ["o"]) true [] oneFig (by simp)

end PlotIo
end Verif
