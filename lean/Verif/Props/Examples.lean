import Verif.Model.Examples
import Verif.Model.Density
import Verif.Props.Density
import Mathlib.Tactic.Linarith
import Mathlib.Tactic.FieldSimp
import Mathlib.Tactic.Ring

/-!
# C69, C70, C71
-/

namespace Verif

/-! ## C71: `print_res` -/

namespace PrintRes

/-- The (filtered) record has all requested fields, and a string in the search column. -/
def Complete (fields : List String) (search : Option String) (r : Rec) : Prop :=
  (∀ f ∈ fields, (r.lookup f).isSome) ∧ ∀ s ∈ search, ∃ t, r.lookup s = some (.str t)

/-- The record is to be listed: no search column, or its entry matches. -/
def Listed (re : String → Bool) (search : Option String) (r : Rec) : Prop :=
  ∀ s ∈ search, ∃ t, r.lookup s = some (.str t) ∧ re t = true

/-- The value of a field. -/
def field (r : Rec) (f : String) : Cell := (r.lookup f).getD (.other 0)

/-- `out` is what the filter function (if any) makes of the records. -/
def Filtered (filterFun : Option (Rec → Py Rec)) (res out : List Rec) : Prop :=
  List.Forall₂ (fun r r' => applyFilter filterFun r = .ok r') res out

theorem mapM_item {r : Rec} : ∀ {fields : List String}, (∀ f ∈ fields, (r.lookup f).isSome) →
    fields.mapM (item r) = .ok (fields.map (field r))
  | [], _ => rfl
  | f :: fs, h => by
    rw [List.mapM_cons, mapM_item fun g hg => h g (by simp [hg])]
    obtain ⟨c, hc⟩ := Option.isSome_iff_exists.1 (h f (by simp))
    have : item r f = .ok c := by unfold item; rw [hc]
    rw [this]
    simp [field, hc]

theorem wanted_some (re : String → Bool) (r : Rec) (s : String) :
    wanted re r (some s) = (item r s >>= searchIn re) := rfl

open Classical in
theorem wanted_ok {re : String → Bool} {fields : List String} {search : Option String} {r : Rec}
    (h : Complete fields search r) : wanted re r search = .ok (decide (Listed re search r)) := by
  cases search with
  | none => simp [wanted, Listed]
  | some s =>
    obtain ⟨t, ht⟩ := h.2 s rfl
    have : item r s = .ok (.str t) := by unfold item; rw [ht]
    rw [wanted_some, this, Py.ok_bind]
    simp [searchIn, Listed, ht]

open Classical in
theorem loop_ok {re : String → Bool} {fields : List String} {search : Option String}
    {filterFun : Option (Rec → Py Rec)} : ∀ {res out : List Rec} (rows : List (List Cell)),
    Filtered filterFun res out → (∀ r ∈ out, Complete fields search r) →
    loop re fields search filterFun res rows =
      .ok (rows ++ (out.filter fun r => decide (Listed re search r)).map fun r => fields.map (field r))
  | [], out, rows, hf, _ => by cases hf; simp [loop]
  | r :: res, out, rows, hf, hc => by
    obtain ⟨r', out', h1, h2, rfl⟩ := List.forall₂_cons_left_iff.1 hf
    have c := hc r' (by simp)
    unfold loop
    rw [h1, Py.ok_bind, wanted_ok (re := re) c, Py.ok_bind]
    by_cases hl : Listed re search r'
    · simp only [hl, decide_true, if_true]
      rw [mapM_item c.1, Py.ok_bind, loop_ok _ h2 fun q hq => hc q (by simp [hq])]
      simp [hl]
    · simp only [hl, decide_false]
      rw [if_neg (by simp), loop_ok _ h2 fun q hq => hc q (by simp [hq])]
      simp [hl]

open Classical in
/-- **C71.** `print_res` tabulates, in order, exactly the (filtered) records whose search column
matches, restricted to the requested fields. -/
theorem C71_rows (re : String → Bool) {res out : List Rec} {fields : List String}
    {search : Option String} {filterFun : Option (Rec → Py Rec)}
    (hf : Filtered filterFun res out) (hd : fields.Nodup) (hc : ∀ r ∈ out, Complete fields search r) :
    printRes re res fields search filterFun =
      .ok (fields, (out.filter fun r => decide (Listed re search r)).map fun r =>
        fields.map (field r)) := by
  unfold printRes
  rw [raiseIf_false (by simpa using hd), Py.ok_bind, loop_ok [] hf hc]
  rfl

/-- **C71**, repeated field names are refused. -/
theorem C71_duplicate (re : String → Bool) (res : List Rec) {fields : List String}
    (search : Option String) (filterFun : Option (Rec → Py Rec)) (hd : ¬ fields.Nodup) :
    printRes re res fields search filterFun = .error .valueError := by
  unfold printRes
  rw [raiseIf_true hd]
  rfl

open Classical in
theorem loop_append {re : String → Bool} {fields : List String} {search : Option String}
    {filterFun : Option (Rec → Py Rec)} : ∀ {pre out : List Rec} (rest : List Rec)
    (rows : List (List Cell)), Filtered filterFun pre out → (∀ r ∈ out, Complete fields search r) →
    ∃ rows', loop re fields search filterFun (pre ++ rest) rows =
      loop re fields search filterFun rest rows'
  | [], out, rest, rows, hf, _ => ⟨rows, rfl⟩
  | r :: res, out, rest, rows, hf, hc => by
    obtain ⟨r', out', h1, h2, rfl⟩ := List.forall₂_cons_left_iff.1 hf
    have c := hc r' (by simp)
    rw [List.cons_append]
    conv => enter [1, rows', 1]; unfold loop
    rw [h1, Py.ok_bind, wanted_ok (re := re) c, Py.ok_bind]
    by_cases hl : Listed re search r'
    · simp only [hl, decide_true, if_true]
      rw [mapM_item c.1, Py.ok_bind]
      exact loop_append rest _ h2 fun q hq => hc q (by simp [hq])
    · simp only [hl, decide_false]
      rw [if_neg (by simp)]
      exact loop_append rest _ h2 fun q hq => hc q (by simp [hq])

theorem mapM_item_missing {r : Rec} : ∀ {fields : List String}, (∃ f ∈ fields, r.lookup f = none) →
    fields.mapM (item r) = .error .keyError
  | [], h => by simp at h
  | f :: fs, h => by
    rw [List.mapM_cons]
    cases hf : r.lookup f with
    | none =>
      have : item r f = .error .keyError := by unfold item; rw [hf]
      rw [this]; rfl
    | some c =>
      have : item r f = .ok c := by unfold item; rw [hf]
      rw [this, Py.ok_bind, mapM_item_missing (fields := fs)]
      · rfl
      · obtain ⟨g, hg, h⟩ := h
        rcases List.mem_cons.1 hg with rfl | hg
        · rw [hf] at h; cases h
        · exact ⟨g, hg, h⟩

/-- **C71**, the first record that lacks the search column, or is listed and lacks a requested
field, stops the call with `KeyError`. -/
theorem C71_key_error (re : String → Bool) {pre out post : List Rec} {r r' : Rec}
    {fields : List String} {search : Option String} {filterFun : Option (Rec → Py Rec)}
    (hf : Filtered filterFun pre out) (hd : fields.Nodup) (hc : ∀ q ∈ out, Complete fields search q)
    (hr : applyFilter filterFun r = .ok r')
    (hbad : (∃ s ∈ search, r'.lookup s = none) ∨
      (Listed re search r' ∧ ∃ f ∈ fields, r'.lookup f = none)) :
    printRes re (pre ++ r :: post) fields search filterFun = .error .keyError := by
  unfold printRes
  rw [raiseIf_false (by simpa using hd), Py.ok_bind]
  obtain ⟨rows', h⟩ := loop_append (re := re) (r :: post) [] hf hc
  rw [h]
  unfold loop
  rw [hr, Py.ok_bind]
  by_cases hs : ∃ s ∈ search, r'.lookup s = none
  · obtain ⟨s, rfl, hs⟩ := hs
    have : wanted re r' (some s) = .error .keyError := by
      have : item r' s = .error .keyError := by unfold item; rw [hs]
      rw [wanted_some, this]; rfl
    rw [this]; rfl
  · obtain ⟨hl, hm⟩ := hbad.resolve_left hs
    have hw : wanted re r' search = .ok true := by
      cases search with
      | none => rfl
      | some s =>
        obtain ⟨t, ht, hre⟩ := hl s rfl
        have : item r' s = .ok (.str t) := by unfold item; rw [ht]
        rw [wanted_some, this, Py.ok_bind]
        simp [searchIn, hre]
    rw [hw, Py.ok_bind]
    simp only [if_true]
    rw [mapM_item_missing hm]
    rfl

/-- The doctest of `print_res`. -/
example : printRes (fun s => s == "foo") [[("a", .str "foo")], [("a", .str "bar")]] ["a"] (some "a") =
    .ok (["a"], [[.str "foo"]]) := by
  rw [C71_rows (out := [[("a", .str "foo")], [("a", .str "bar")]])]
  · simp [Listed, field, List.lookup]
  · exact .cons rfl (.cons rfl .nil)
  · simp
  · intro r hr
    simp only [List.mem_cons, List.not_mem_nil, or_false] at hr
    rcases hr with rfl | rfl <;> simp [Complete, List.lookup]

end PrintRes

/-! ## C70: the piecewise-linear boundary expression -/

namespace Piecewise

/-! ### Specification: how a C++ compiler reads the tokens -/

/-- Expressions. -/
inductive CExpr
  | num (r : ℝ)
  | x (d : ℕ)
  | mul (a b : CExpr) | div (a b : CExpr) | add (a b : CExpr) | sub (a b : CExpr)
  | ge (a b : CExpr) | lt (a b : CExpr) | and (a b : CExpr)

open Classical in
/-- Value at a point; truth values are 1 and 0. -/
noncomputable def CExpr.eval (pt : ℕ → ℝ) : CExpr → ℝ
  | .num r => r
  | .x d => pt d
  | .mul a b => a.eval pt * b.eval pt
  | .div a b => a.eval pt / b.eval pt
  | .add a b => a.eval pt + b.eval pt
  | .sub a b => a.eval pt - b.eval pt
  | .ge a b => if a.eval pt ≥ b.eval pt then 1 else 0
  | .lt a b => if a.eval pt < b.eval pt then 1 else 0
  | .and a b => if a.eval pt ≠ 0 ∧ b.eval pt ≠ 0 then 1 else 0

/-- Binary operators by precedence level: `*` `/` bind tightest, then `+` `-`, then comparisons,
then `&&`. -/
def opAt : ℕ → Tok → Option (CExpr → CExpr → CExpr)
  | 1, .mul => some .mul
  | 1, .div => some .div
  | 2, .plus => some .add
  | 2, .minus => some .sub
  | 3, .ge => some .ge
  | 3, .lt => some .lt
  | 4, .and => some .and
  | _, _ => none

mutual
/-- Recursive-descent parser; the first argument bounds the recursion. -/
def parse : ℕ → ℕ → List Tok → Option (CExpr × List Tok)
  | 0, _, _ => none
  | _ + 1, 0, .num r :: ts => some (.num r, ts)
  | _ + 1, 0, .x d :: ts => some (.x d, ts)
  | f + 1, 0, .lp :: ts =>
    match parse f 4 ts with
    | some (e, .rp :: ts') => some (e, ts')
    | _ => none
  | _ + 1, 0, _ => none
  | f + 1, l + 1, ts =>
    match parse f l ts with
    | some (e, ts') => parseRest f (l + 1) e ts'
    | none => none

/-- Further operators of the same level, associating to the left. -/
def parseRest : ℕ → ℕ → CExpr → List Tok → Option (CExpr × List Tok)
  | 0, _, _, _ => none
  | _ + 1, _, e, [] => some (e, [])
  | f + 1, l, e, t :: ts =>
    match opAt l t with
    | some op =>
      match parse f (l - 1) ts with
      | some (e', ts') => parseRest f l (op e e') ts'
      | none => none
    | none => some (e, t :: ts)
end

/-- The token sequence is read as the expression `e`. -/
def Parses (ts : List Tok) (e : CExpr) : Prop := ∃ N, ∀ f ≥ N, parse f 4 ts = some (e, [])

/-- A token sequence is read in at most one way. -/
theorem Parses.unique {ts : List Tok} {e e' : CExpr} (h : Parses ts e) (h' : Parses ts e') :
    e = e' := by
  obtain ⟨N, h⟩ := h
  obtain ⟨M, h'⟩ := h'
  have := (h (max N M) (le_max_left _ _)).symm.trans (h' (max N M) (le_max_right _ _))
  cases this
  rfl

/-! ### Proof -/

/-- The expression of one interval. -/
def pieceExpr (d : ℕ) (start stop y0 y1 : ℝ) : CExpr :=
  .mul (.and (.ge (.x d) (.num start)) (.lt (.x d) (.num stop)))
    (.add (.mul (.num y0) (.div (.sub (.x d) (.num stop)) (.num (start - stop))))
      (.mul (.sub (.num 1) (.div (.sub (.x d) (.num stop)) (.num (start - stop)))) (.num y1)))

/-- The tokens of one interval without the trailing `+`. -/
def body (d : ℕ) (start stop y0 y1 : ℝ) : List Tok := (piece d start stop y0 y1).dropLast

/-- What may follow a summand: nothing, or `+`. -/
def Follow (ts : List Tok) : Prop := ts = [] ∨ ∃ r, ts = .plus :: r

theorem parse_body (d : ℕ) (start stop y0 y1 : ℝ) (f : ℕ) (ts : List Tok) (h : Follow ts) :
    parse (f + 60) 1 (body d start stop y0 y1 ++ ts) =
      some (pieceExpr d start stop y0 y1, ts) := by
  rcases h with rfl | ⟨r, rfl⟩ <;>
    simp [body, piece, parse, parseRest, opAt, pieceExpr]

/-- An interval with the values at its ends. -/
structure Seg where
  start : ℝ
  stop : ℝ
  y0 : ℝ
  y1 : ℝ

def Seg.toks (d : ℕ) (p : Seg) : List Tok := body d p.start p.stop p.y0 p.y1
def Seg.expr (d : ℕ) (p : Seg) : CExpr := pieceExpr d p.start p.stop p.y0 p.y1

theorem follow_flatMap (d : ℕ) (ps : List Seg) :
    Follow (ps.flatMap fun p => .plus :: p.toks d) := by
  cases ps with
  | nil => exact Or.inl rfl
  | cons p ps => exact Or.inr ⟨_, rfl⟩

theorem parse_sum (d : ℕ) : ∀ (ps : List Seg) (e : CExpr) (f : ℕ), 60 + ps.length < f →
    parseRest f 2 e (ps.flatMap fun p => .plus :: p.toks d) =
      some (ps.foldl (fun a p => .add a (p.expr d)) e, [])
  | [], e, f, h => by
    obtain ⟨g, rfl⟩ := Nat.exists_eq_succ_of_ne_zero (by omega : f ≠ 0)
    rfl
  | p :: ps, e, f, h => by
    simp only [List.length_cons] at h
    obtain ⟨k, rfl⟩ : ∃ k, f = k + 60 + 1 := ⟨f - 61, by omega⟩
    rw [List.flatMap_cons, List.cons_append, parseRest]
    simp only [opAt]
    have := parse_body d p.start p.stop p.y0 p.y1 k _ (follow_flatMap d ps)
    rw [show 2 - 1 = 1 from rfl]
    unfold Seg.toks at this ⊢
    rw [this]
    simp only
    exact parse_sum d ps _ _ (by omega)

theorem parses_sum (d : ℕ) (p : Seg) (ps : List Seg) :
    Parses (p.toks d ++ ps.flatMap fun p => .plus :: p.toks d)
      (ps.foldl (fun a p => .add a (p.expr d)) (p.expr d)) := by
  refine ⟨70 + ps.length, fun f hf => ?_⟩
  obtain ⟨k, rfl⟩ : ∃ k, f = k + 60 + 3 := ⟨f - 63, by omega⟩
  have h2 : parse (k + 60 + 1) 2 (p.toks d ++ ps.flatMap fun p => .plus :: p.toks d) =
      some (ps.foldl (fun a p => .add a (p.expr d)) (p.expr d), []) := by
    rw [parse]
    have := parse_body d p.start p.stop p.y0 p.y1 k _ (follow_flatMap d ps)
    unfold Seg.toks at this ⊢
    rw [this]
    simp only
    exact parse_sum d ps _ _ (by omega)
  rw [parse, parse, h2]
  rfl

theorem dropLast_flatMap (d : ℕ) : ∀ (p : Seg) (ps : List Seg),
    ((p :: ps).flatMap fun p => p.toks d ++ [Tok.plus]).dropLast =
      p.toks d ++ ps.flatMap fun p => .plus :: p.toks d
  | p, [] => by simp
  | p, q :: ps => by
    rw [List.flatMap_cons, List.dropLast_append_of_ne_nil (by simp), dropLast_flatMap d q ps]
    simp

theorem piece_eq (d : ℕ) (a b y0 y1 : ℝ) : piece d a b y0 y1 = body d a b y0 y1 ++ [.plus] := rfl

theorem eval_foldl (pt : ℕ → ℝ) (d : ℕ) : ∀ (ps : List Seg) (e : CExpr),
    (ps.foldl (fun a p => CExpr.add a (p.expr d)) e).eval pt =
      e.eval pt + (ps.map fun p => (p.expr d).eval pt).sum
  | [], e => by simp
  | p :: ps, e => by
    rw [List.foldl_cons, eval_foldl pt d ps]
    simp [CExpr.eval, add_assoc]

theorem eval_piece_in (pt : ℕ → ℝ) (d : ℕ) {p : Seg} (h : p.start < p.stop)
    (h1 : p.start ≤ pt d) (h2 : pt d < p.stop) :
    (p.expr d).eval pt = p.y0 + (pt d - p.start) / (p.stop - p.start) * (p.y1 - p.y0) := by
  unfold Seg.expr pieceExpr
  simp only [CExpr.eval]
  have hd : p.start - p.stop ≠ 0 := (sub_neg.2 h).ne
  have hd' : p.stop - p.start ≠ 0 := (sub_pos.2 h).ne'
  have : (pt d - p.stop) / (p.start - p.stop) =
      1 - (pt d - p.start) / (p.stop - p.start) := by
    field_simp
    ring
  rw [this]
  simp [h1, h2]
  ring

theorem eval_piece_out (pt : ℕ → ℝ) (d : ℕ) {p : Seg} (h : ¬ (p.start ≤ pt d ∧ pt d < p.stop)) :
    (p.expr d).eval pt = 0 := by
  unfold Seg.expr pieceExpr
  simp only [CExpr.eval]
  by_cases h1 : p.start ≤ pt d
  · have h2 : ¬ pt d < p.stop := fun h2 => h ⟨h1, h2⟩
    simp [h2]
  · simp [h1]

/-- The knots: 0, the given values, 1. -/
def knot (u : List ℝ) (i : ℕ) : ℝ :=
  if i = 0 then 0 else if i = u.length + 1 then 1 else u.getD (i - 1) 0

theorem yvals_getD (u : List ℝ) {i : ℕ} (hi : i ≤ u.length + 1) : (yvals u).getD i 0 = knot u i := by
  unfold yvals knot
  cases i with
  | zero => simp
  | succ i =>
    simp only [List.cons_append, List.nil_append, List.getD_cons_succ, Nat.add_one_ne_zero, if_false,
      Nat.add_right_cancel_iff, Nat.add_sub_cancel]
    by_cases h : i = u.length
    · subst h; simp [List.getD_eq_getElem?_getD]
    · have h' : i < u.length := by omega
      rw [if_neg h]
      simp [List.getD_eq_getElem?_getD, List.getElem?_append_left h', h']

/-- Interval `i`, `0 ≤ i ≤ n`. -/
noncomputable def seg (u : List ℝ) (i : ℕ) : Seg :=
  ⟨xval u.length i, xval u.length (i + 1), knot u i, knot u (i + 1)⟩

theorem toks_eq (u : List ℝ) (d : ℕ) : evalFromVector u d =
    (seg u 0).toks d ++ ((List.range u.length).map fun i => seg u (i + 1)).flatMap fun p =>
      .plus :: p.toks d := by
  rw [← dropLast_flatMap]
  unfold evalFromVector
  congr 1
  have : (seg u 0 :: (List.range u.length).map fun i => seg u (i + 1)) =
      (List.range (u.length + 1)).map (seg u) := by
    rw [List.range_succ_eq_map, List.map_cons, List.map_map]; rfl
  rw [this, List.range'_eq_map_range, List.flatMap_map, List.flatMap_map]
  refine List.flatMap_congr fun i hi => ?_
  have hi : i < u.length + 1 := by simpa using hi
  rw [piece_eq]
  simp only [seg, Seg.toks, Nat.add_comm 1 i, Nat.add_sub_cancel]
  rw [yvals_getD u (by omega), yvals_getD u (by omega)]

theorem xval_lt (n : ℕ) {i j : ℕ} (h : i < j) : xval n i < xval n j := by
  unfold xval
  have h1 : (0 : ℝ) < 1 / ((n : ℝ) + 1) := by positivity
  have h2 : (i : ℝ) < j := by exact_mod_cast h
  nlinarith

theorem xval_le (n : ℕ) {i j : ℕ} (h : i ≤ j) : xval n i ≤ xval n j := by
  rcases h.eq_or_lt with rfl | h
  · exact le_rfl
  · exact (xval_lt n h).le

/-- **C70.** The text built from the values `u` at the interior points `i/(n+1)` of an equal
partition of the unit interval is a well-formed expression; at a point whose `d`-th coordinate is
`(i + t)/(n + 1)` with `0 ≤ t < 1` it evaluates to `(1 - t) y_i + t y_{i+1}`, where `y` are the
knots `0, u_1, ..., u_n, 1`; outside `[0, 1)` it evaluates to 0. -/
theorem C70_interpolant (u : List ℝ) (d : ℕ) :
    ∃ e, Parses (evalFromVector u d) e ∧
      (∀ (pt : ℕ → ℝ) (i : ℕ) (t : ℝ), i ≤ u.length → 0 ≤ t → t < 1 →
        pt d = (i + t) / (u.length + 1) → e.eval pt = (1 - t) * knot u i + t * knot u (i + 1)) ∧
      ∀ pt : ℕ → ℝ, pt d < 0 ∨ 1 ≤ pt d → e.eval pt = 0 := by
  classical
  refine ⟨_, by rw [toks_eq]; exact parses_sum d _ _, ?_, ?_⟩
  · intro pt i t hi h0 h1 hpt
    have hn : (0 : ℝ) < (u.length : ℝ) + 1 := by positivity
    have hx : ∀ j : ℕ, xval u.length j ≤ pt d ↔ j ≤ i := by
      intro j
      rw [hpt]
      unfold xval
      rw [mul_one_div, div_le_div_iff_of_pos_right hn]
      constructor
      · intro h
        by_contra hlt
        have : ((i : ℝ) + 1) ≤ j := by exact_mod_cast (by omega : i + 1 ≤ j)
        linarith
      · intro h
        have : (j : ℝ) ≤ i := by exact_mod_cast h
        linarith
    have hsum : ∀ j : ℕ, ((seg u j).expr d).eval pt =
        if j = i then (1 - t) * knot u i + t * knot u (i + 1) else 0 := by
      intro j
      by_cases hj : j = i
      · subst hj
        rw [if_pos rfl, eval_piece_in pt d (xval_lt _ (Nat.lt_succ_self j)) ((hx j).2 le_rfl)
          (not_le.1 fun h => by have := (hx (j + 1)).1 h; omega)]
        simp only [seg]
        have : (pt d - xval u.length j) / (xval u.length (j + 1) - xval u.length j) = t := by
          rw [hpt]; unfold xval; push_cast; field_simp; ring
        rw [this]; ring
      · rw [if_neg hj]
        refine eval_piece_out pt d ?_
        simp only [seg]
        rintro ⟨h2, h3⟩
        have a := (hx j).1 h2
        have b : ¬ (j + 1 ≤ i) := fun h => not_le.2 h3 ((hx (j + 1)).2 h)
        omega
    rw [eval_foldl, List.map_map]
    have : (fun p => (Seg.expr d p).eval pt) ∘ (fun i => seg u (i + 1)) =
        fun j => if j + 1 = i then (1 - t) * knot u i + t * knot u (i + 1) else 0 := by
      funext j; exact hsum (j + 1)
    rw [this, hsum 0]
    generalize (1 - t) * knot u i + t * knot u (i + 1) = v
    cases i with
    | zero => simp
    | succ i =>
      have : ((List.range u.length).map fun j => if j + 1 = i + 1 then v else 0).sum =
          ∑ j ∈ Finset.range u.length, if j = i then v else 0 := by
        simp [Finset.sum, Multiset.range]
      rw [this]
      have hi' : i < u.length := by omega
      simp [hi']
  · intro pt h
    have hz : ∀ j ≤ u.length, ((seg u j).expr d).eval pt = 0 := by
      intro j hj
      refine eval_piece_out pt d ?_
      simp only [seg]
      rintro ⟨h2, h3⟩
      have a : 0 ≤ xval u.length j := by unfold xval; positivity
      have b : xval u.length (j + 1) ≤ 1 := by
        refine (xval_le _ (show j + 1 ≤ u.length + 1 by omega)).trans ?_
        unfold xval
        push_cast
        rw [mul_one_div, div_self (by positivity)]
      rcases h with h | h <;> linarith
    rw [eval_foldl, hz 0 (by omega), List.map_map, zero_add]
    refine List.sum_eq_zero fun v hv => ?_
    simp only [List.mem_map, List.mem_range, Function.comp] at hv
    obtain ⟨j, hj, rfl⟩ := hv
    exact hz _ (by omega)

/-- Every number in `[0, 1)` is covered by the statement. -/
theorem C70_cover (n : ℕ) {x : ℝ} (h0 : 0 ≤ x) (h1 : x < 1) :
    ∃ (i : ℕ) (t : ℝ), i ≤ n ∧ 0 ≤ t ∧ t < 1 ∧ x = (i + t) / (n + 1) := by
  have hn : (0 : ℝ) < (n : ℝ) + 1 := by positivity
  refine ⟨⌊x * (n + 1)⌋₊, x * (n + 1) - ⌊x * (n + 1)⌋₊, ?_, ?_, ?_, ?_⟩
  · have : ⌊x * ((n : ℝ) + 1)⌋₊ < n + 1 := by
      rw [Nat.floor_lt (by positivity)]
      push_cast
      nlinarith
    omega
  · linarith [Nat.floor_le (show 0 ≤ x * ((n : ℝ) + 1) by positivity)]
  · linarith [Nat.lt_floor_add_one (x * ((n : ℝ) + 1))]
  · field_simp
    ring

/-- At the interior points the expression takes the given values. -/
theorem C70_values (u : List ℝ) (d : ℕ) : ∃ e, Parses (evalFromVector u d) e ∧
    ∀ (pt : ℕ → ℝ) (i : ℕ), i < u.length → pt d = (i + 1) / (u.length + 1) →
      e.eval pt = u.getD i 0 := by
  obtain ⟨e, h1, h2, -⟩ := C70_interpolant u d
  refine ⟨e, h1, fun pt i hi hpt => ?_⟩
  rw [h2 pt (i + 1) 0 (by omega) le_rfl zero_lt_one (by rw [hpt]; push_cast; ring)]
  unfold knot
  rw [if_neg (by omega), if_neg (by omega)]
  simp

/-- One interior value 3: at `x[1] = 1/4` the value is 3/2, at `x[1] = 3/4` it is 2. -/
example : ∃ e, Parses (evalFromVector [3]) e ∧ e.eval (fun _ => 1 / 4) = 3 / 2 ∧
    e.eval (fun _ => 3 / 4) = 2 := by
  obtain ⟨e, h1, h2, -⟩ := C70_interpolant [3] 1
  refine ⟨e, h1, ?_, ?_⟩
  · rw [h2 _ 0 (1 / 2) (by simp) (by norm_num) (by norm_num) (by norm_num)]
    simp [knot]; norm_num
  · rw [h2 _ 1 (1 / 2) (by simp) (by norm_num) (by norm_num) (by norm_num)]
    simp [knot]; norm_num

end Piecewise

/-! ## C69: `plot_params_2d` -/

/-- Column `j` of a table. -/
def columnOf (A : Arr2) (j : ℕ) : List ℝ := List.ofFn fun i : Fin A.r => A.get i j

/-- C69 as stated: the requested coordinates are scattered, out-of-range indices are rejected. -/
def C69_claim : Prop :=
  ∀ (P : DP) (x_1 x_2 y : ℕ), 2 ≤ P.n_params →
    (x_1 < P.n_params → x_2 < P.n_params → y < P.n_features →
      P.plotParams2d x_1 x_2 y = .ok (columnOf P.X x_1, columnOf P.X x_2, columnOf P.y y)) ∧
    (P.n_params ≤ x_1 ∨ P.n_params ≤ x_2 ∨ P.n_features ≤ y →
      P.plotParams2d x_1 x_2 y = .error .valueError)

/-- The rejection half holds, for all indices including negative ones; fewer than two parameters are
an `AttributeError`. -/
theorem C69_rejects (P : DP) (x_1 x_2 y : ℤ) :
    (P.n_params < 2 → P.plotParams2d x_1 x_2 y = .error .attributeError) ∧
    (2 ≤ P.n_params → (P.n_params ≤ x_1 ∨ P.n_params ≤ x_2 ∨ P.n_features ≤ y) →
      P.plotParams2d x_1 x_2 y = .error .valueError) := by
  constructor
  · intro h
    unfold DP.plotParams2d
    rw [raiseIf_true h]; rfl
  · intro h0 h
    unfold DP.plotParams2d
    rw [raiseIf_false (by omega), Py.ok_bind]
    by_cases h1 : x_1 ≥ P.n_params ∨ x_2 ≥ P.n_params
    · rw [raiseIf_true h1]; rfl
    · have h2 : y ≥ P.n_features := by
        rcases h with h | h | h
        · exact absurd (Or.inl h) h1
        · exact absurd (Or.inr h) h1
        · exact h
      rw [raiseIf_false h1, Py.ok_bind, raiseIf_true h2]; rfl

/-- What is drawn: always columns 0 and 1, coloured by the requested observable. -/
theorem C69_exact (P : DP) (x_1 x_2 y : ℕ) (h : 2 ≤ P.n_params) (h1 : x_1 < P.n_params)
    (h2 : x_2 < P.n_params) (hy : y < P.n_features) :
    P.plotParams2d x_1 x_2 y = .ok (columnOf P.X 0, columnOf P.X 1, columnOf P.y y) := by
  unfold DP.plotParams2d
  rw [raiseIf_false (by omega), Py.ok_bind, raiseIf_false (by omega), Py.ok_bind,
    raiseIf_false (by omega), Py.ok_bind]
  have hk : ¬ ((y : ℤ) < 0) := by omega
  simp only [hk, if_false]
  rw [raiseIf_false (by trivial), Py.ok_bind]
  rfl

/-- **C69, the part that holds**: the default coordinates `x_1 = 0`, `x_2 = 1`, every observable. -/
theorem C69_default_partial (P : DP) (y : ℕ) (h : 2 ≤ P.n_params) (hy : y < P.n_features) :
    P.plotParams2d 0 1 y = .ok (columnOf P.X 0, columnOf P.X 1, columnOf P.y y) :=
  C69_exact P 0 1 y h (by omega) (by omega) hy

/-- Two parameters, one sample. -/
def onePoint : DP where
  X := ⟨1, 2, !![1, 2]⟩
  y := ⟨1, 1, !![5]⟩
  domain := ⟨2, 2, !![0, 3; 0, 3]⟩
  domInt := false
  weights := [.fin 1]

/-- Requested with the axes exchanged. -/
theorem C69_claim_refuted : ¬ C69_claim := by
  intro h
  have h0 := (h onePoint 1 0 0 (le_refl 2)).1 (show 1 < 2 by omega) (show 0 < 2 by omega)
    (show 0 < 1 by omega)
  rw [C69_exact onePoint 1 0 0 (le_refl 2) (show 1 < 2 by omega) (show 0 < 2 by omega)
    (show 0 < 1 by omega)] at h0
  simp [columnOf, Arr2.get, onePoint] at h0

/-! ### Further cases meeting the hypotheses -/

/-- C69: two parameters and one output. -/
example : ∃ P : DP, DP.new (.mat ⟨2, 2, !![0, 3; 1, 4]⟩) (.vec 2 ![5, 6]) none none = .ok P ∧
    P.plotParams2d 0 1 (0 : ℕ) = .ok ([0, 1], [3, 4], [5, 6]) := by
  refine ⟨_, rfl, (C69_default_partial _ 0 le_rfl ?_).trans rfl⟩
  exact Nat.lt_succ_self 0

/-- C70: three intervals, and `1/2` is the middle of the second one. -/
example : ∃ (i : ℕ) (t : ℝ), i ≤ 2 ∧ 0 ≤ t ∧ t < 1 ∧ (1 / 2 : ℝ) = (i + t) / ((2 : ℕ) + 1) :=
  Piecewise.C70_cover 2 (by norm_num) (by norm_num)

example (re : String → Bool) (res : List PrintRes.Rec) :
    PrintRes.printRes re res ["a", "b", "a"] none none = .error .valueError :=
  PrintRes.C71_duplicate re res none none (by decide)

/-- C71: the second record has no field `"a"`; the third one does not matter. -/
example (re : String → Bool) (r : PrintRes.Rec) :
    PrintRes.printRes re [[("a", .str "x")], [("b", .str "y")], r] ["a"] none none = .error .keyError :=
  PrintRes.C71_key_error re (pre := [[("a", .str "x")]]) (out := [[("a", .str "x")]]) (post := [r])
    (.cons rfl .nil) (by decide) (by
      intro q hq
      obtain rfl := List.mem_singleton.1 hq
      simp [PrintRes.Complete]) (r' := [("b", .str "y")]) rfl (.inr ⟨by simp [PrintRes.Listed], "a", by simp, rfl⟩)

end Verif
