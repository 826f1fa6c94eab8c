import Verif.Props.SvgText
import Mathlib.Algebra.Group.Prod

/-!
C61: paths are read as the SVG standard says.
-/
set_option autoImplicit false
set_option linter.unusedSimpArgs false

namespace Glimpse.Svg

/-! ### Specification -/

variable {ν : Type}

/-- A path command with its parameters; `r`: relative (small letter). -/
inductive PathCmd (ν : Type) where
  | move (r : Bool) (p : ν × ν) (more : List (ν × ν))
  | line (r : Bool) (ps : List (ν × ν))
  | shortQuad (r : Bool) (ps : List (ν × ν))
  | horiz (r : Bool) (xs : List ν)
  | vert (r : Bool) (ys : List ν)
  | cubic (r : Bool) (ps : List ((ν × ν) × (ν × ν) × (ν × ν)))
  | shortCubic (r : Bool) (ps : List ((ν × ν) × (ν × ν)))
  | quad (r : Bool) (ps : List ((ν × ν) × (ν × ν)))
  | arc (r : Bool) (ps : List ((ν × ν × ν × ν × ν) × (ν × ν)))
  | close (r : Bool)

/-- The letter of a command. -/
def PathCmd.letter : PathCmd ν → Char
  | move r _ _ => if r then 'm' else 'M'
  | line r _ => if r then 'l' else 'L'
  | shortQuad r _ => if r then 't' else 'T'
  | horiz r _ => if r then 'h' else 'H'
  | vert r _ => if r then 'v' else 'V'
  | cubic r _ => if r then 'c' else 'C'
  | shortCubic r _ => if r then 's' else 'S'
  | quad r _ => if r then 'q' else 'Q'
  | arc r _ => if r then 'a' else 'A'
  | close r => if r then 'z' else 'Z'

/-- The parameters of a command, in a row. -/
def PathCmd.args : PathCmd ν → List ν
  | move _ p ps => p.1 :: p.2 :: ps.flatMap fun p => [p.1, p.2]
  | line _ ps => ps.flatMap fun p => [p.1, p.2]
  | shortQuad _ ps => ps.flatMap fun p => [p.1, p.2]
  | horiz _ xs => xs
  | vert _ ys => ys
  | cubic _ ps => ps.flatMap fun p => [p.1.1, p.1.2, p.2.1.1, p.2.1.2, p.2.2.1, p.2.2.2]
  | shortCubic _ ps => ps.flatMap fun p => [p.1.1, p.1.2, p.2.1, p.2.2]
  | quad _ ps => ps.flatMap fun p => [p.1.1, p.1.2, p.2.1, p.2.2]
  | arc _ ps => ps.flatMap fun p => [p.1.1, p.1.2.1, p.1.2.2.1, p.1.2.2.2.1, p.1.2.2.2.2, p.2.1, p.2.2]
  | close _ => []

/-- The text of a path: each letter followed by its parameters. -/
def Fmt.pathText (F : Fmt ν) (cs : List (PathCmd ν)) : List Char :=
  cs.flatMap fun c => c.letter :: ' ' :: joinSpace (c.args.map F.str)

/-- The vertices visited by a pen at `cur` that goes to each target in turn. -/
def visit [Add ν] (r : Bool) (cur : ν × ν) : List (ν × ν) → List (ν × ν)
  | [] => []
  | p :: ps => let q := if r then (cur.1 + p.1, cur.2 + p.2) else p
               q :: visit r q ps

/-- The same along x. -/
def visitX [Add ν] (r : Bool) (cur : ν × ν) : List ν → List (ν × ν)
  | [] => []
  | x :: xs => let q := ((if r then cur.1 + x else x), cur.2)
               q :: visitX r q xs

/-- The same along y. -/
def visitY [Add ν] (r : Bool) (cur : ν × ν) : List ν → List (ν × ν)
  | [] => []
  | y :: ys => let q := (cur.1, (if r then cur.2 + y else y))
               q :: visitY r q ys

/-- The vertices of one command, for a pen at `cur` in a subpath that starts at `start`. Curves go to their end points.
A closing goes back to the start of the subpath. -/
def PathCmd.vertices [Add ν] (start cur : ν × ν) : PathCmd ν → List (ν × ν)
  | move r p ps => visit r cur (p :: ps)
  | line r ps => visit r cur ps
  | shortQuad r ps => visit r cur ps
  | horiz r xs => visitX r cur xs
  | vert r ys => visitY r cur ys
  | cubic r ps => visit r cur (ps.map fun p => p.2.2)
  | shortCubic r ps => visit r cur (ps.map fun p => p.2)
  | quad r ps => visit r cur (ps.map fun p => p.2)
  | arc r ps => visit r cur (ps.map fun p => p.2)
  | close _ => [start]

/-- A subpath starts at the first target of a move. -/
def PathCmd.newStart [Add ν] (start cur : ν × ν) : PathCmd ν → ν × ν
  | move r p _ => if r then (cur.1 + p.1, cur.2 + p.2) else p
  | _ => start

/-- The vertices of a path according to the SVG standard. -/
def svgVertices [Add ν] (start cur : ν × ν) : List (PathCmd ν) → List (ν × ν)
  | [] => []
  | c :: cs =>
    let vs := c.vertices start cur
    vs ++ svgVertices (c.newStart start cur) (vs.getLast?.getD cur) cs

/-- Whether a command starts a subpath. -/
def PathCmd.isMove : PathCmd ν → Bool
  | move _ _ _ => true
  | _ => false

/-- Whether a command closes a subpath. -/
def PathCmd.isClose : PathCmd ν → Bool
  | close _ => true
  | _ => false

/-- Only the first subpath is closed: nothing closes after a further move. -/
def NoLateClose : List (PathCmd ν) → Prop
  | [] => True
  | c :: cs => (c.isMove = true → ∀ d ∈ cs, d.isClose = false) ∧ NoLateClose cs

/-! ### Commands -/

private theorem chunks2_pairs (ps : List (ν × ν)) : chunks2 (ps.flatMap fun p => [p.1, p.2]) = ps := by
  induction ps with
  | nil => rfl
  | cons p ps ih => simp [chunks2, ih]

private theorem chunks4_pairs (ps : List ((ν × ν) × (ν × ν))) :
    chunks4 (ps.flatMap fun p => [p.1.1, p.1.2, p.2.1, p.2.2]) = ps.map fun p => p.2 := by
  induction ps with
  | nil => rfl
  | cons p ps ih => simp [chunks4, ih]

private theorem chunks6_pairs (ps : List ((ν × ν) × (ν × ν) × (ν × ν))) :
    chunks6 (ps.flatMap fun p => [p.1.1, p.1.2, p.2.1.1, p.2.1.2, p.2.2.1, p.2.2.2]) = ps.map fun p => p.2.2 := by
  induction ps with
  | nil => rfl
  | cons p ps ih => simp [chunks6, ih]

private theorem chunks7_pairs (ps : List ((ν × ν × ν × ν × ν) × (ν × ν))) :
    chunks7 (ps.flatMap fun p => [p.1.1, p.1.2.1, p.1.2.2.1, p.1.2.2.2.1, p.1.2.2.2.2, p.2.1, p.2.2]) =
      ps.map fun p => p.2 := by
  induction ps with
  | nil => rfl
  | cons p ps ih => simp [chunks7, ih]

private theorem last_snoc (xy : List (ν × ν)) (q : ν × ν) : last (xy ++ [q]) = .ok q := by
  unfold last; rw [List.getLast?_concat]

private theorem visit_abs [Add ν] (cur : ν × ν) (ps : List (ν × ν)) : visit false cur ps = ps := by
  induction ps generalizing cur with
  | nil => rfl
  | cons p ps ih => simp [visit, ih]

private theorem fold_rel [Add ν] (pre : List (ν × ν)) (cur : ν × ν) (ps : List (ν × ν)) :
    ps.foldlM rel (pre ++ [cur]) = .ok (pre ++ [cur] ++ visit true cur ps) := by
  induction ps generalizing pre cur with
  | nil => simp [visit, pure, Except.pure]
  | cons p ps ih =>
    have := ih (pre ++ [cur]) (cur.1 + p.1, cur.2 + p.2)
    simp only [List.foldlM_cons, rel, last_snoc, bind, Except.bind]
    rw [this]
    simp [visit]

private theorem fold_relFirst [Add ν] (pre : List (ν × ν)) (cur : ν × ν) (ps : List (ν × ν)) :
    ps.foldlM relFirst (pre ++ [cur]) = .ok (pre ++ [cur] ++ visit true cur ps) := by
  induction ps generalizing pre cur with
  | nil => simp [visit, pure, Except.pure]
  | cons p ps ih =>
    have := ih (pre ++ [cur]) (cur.1 + p.1, cur.2 + p.2)
    simp only [List.foldlM_cons, relFirst, List.getLast?_concat, bind, Except.bind]
    rw [this]
    simp [visit]

private theorem fold_H [Add ν] (r : Bool) (pre : List (ν × ν)) (cur : ν × ν) (xs : List ν) :
    xs.foldlM (fun (l : List (ν × ν)) (x : ν) => do
        let p ← last l; Except.ok (l ++ [((if r then p.1 + x else x), p.2)])) (pre ++ [cur]) =
      .ok (pre ++ [cur] ++ visitX r cur xs) := by
  induction xs generalizing pre cur with
  | nil => simp [visitX, pure, Except.pure]
  | cons x xs ih =>
    have := ih (pre ++ [cur]) ((if r then cur.1 + x else x), cur.2)
    simp only [List.foldlM_cons, last_snoc, bind, Except.bind] at this ⊢
    rw [this]
    simp [visitX]

private theorem fold_V [Add ν] (r : Bool) (pre : List (ν × ν)) (cur : ν × ν) (xs : List ν) :
    xs.foldlM (fun (l : List (ν × ν)) (y : ν) => do
        let p ← last l; Except.ok (l ++ [(p.1, (if r then p.2 + y else y))])) (pre ++ [cur]) =
      .ok (pre ++ [cur] ++ visitY r cur xs) := by
  induction xs generalizing pre cur with
  | nil => simp [visitY, pure, Except.pure]
  | cons x xs ih =>
    have := ih (pre ++ [cur]) (cur.1, (if r then cur.2 + x else x))
    simp only [List.foldlM_cons, last_snoc, bind, Except.bind] at this ⊢
    rw [this]
    simp [visitY]

/-- One command after the first. -/
private theorem command_step [Add ν] (c : PathCmd ν) (pre : List (ν × ν)) (start cur : ν × ν)
    (hs : c.isClose = true → (pre ++ [cur]).head? = some start) :
    pathCommand (pre ++ [cur]) [c.letter] c.args = .ok (pre ++ [cur] ++ c.vertices start cur) := by
  cases c with
  | move r p ps =>
    have h2 : chunks2 (PathCmd.move r p ps).args = p :: ps := chunks2_pairs (p :: ps)
    cases r with
    | false => simp only [PathCmd.letter, pathCommand, h2, PathCmd.vertices, visit_abs]; simp
    | true => simpa [PathCmd.letter, pathCommand, h2, PathCmd.vertices] using fold_relFirst pre cur (p :: ps)
  | line r ps =>
    have h2 : chunks2 (PathCmd.line r ps).args = ps := chunks2_pairs ps
    cases r with
    | false => simp only [PathCmd.letter, pathCommand, h2, PathCmd.vertices, visit_abs]; simp
    | true => simpa [PathCmd.letter, pathCommand, h2, PathCmd.vertices] using fold_relFirst pre cur ps
  | shortQuad r ps =>
    have h2 : chunks2 (PathCmd.shortQuad r ps).args = ps := chunks2_pairs ps
    cases r with
    | false => simp only [PathCmd.letter, pathCommand, h2, PathCmd.vertices, visit_abs]; simp
    | true => simpa [PathCmd.letter, pathCommand, h2, PathCmd.vertices] using fold_relFirst pre cur ps
  | horiz r xs =>
    have := fold_H r pre cur xs
    cases r <;> simpa [PathCmd.letter, pathCommand, PathCmd.args, PathCmd.vertices] using this
  | vert r ys =>
    have := fold_V r pre cur ys
    cases r <;> simpa [PathCmd.letter, pathCommand, PathCmd.args, PathCmd.vertices] using this
  | cubic r ps =>
    have h2 : chunks6 (PathCmd.cubic r ps).args = ps.map fun p => p.2.2 := chunks6_pairs ps
    cases r with
    | false => simp only [PathCmd.letter, pathCommand, h2, PathCmd.vertices, visit_abs]; simp
    | true => simpa [PathCmd.letter, pathCommand, h2, PathCmd.vertices] using fold_rel pre cur (ps.map fun p => p.2.2)
  | shortCubic r ps =>
    have h2 : chunks4 (PathCmd.shortCubic r ps).args = ps.map fun p => p.2 := chunks4_pairs ps
    cases r with
    | false => simp only [PathCmd.letter, pathCommand, h2, PathCmd.vertices, visit_abs]; simp
    | true => simpa [PathCmd.letter, pathCommand, h2, PathCmd.vertices] using fold_rel pre cur (ps.map fun p => p.2)
  | quad r ps =>
    have h2 : chunks4 (PathCmd.quad r ps).args = ps.map fun p => p.2 := chunks4_pairs ps
    cases r with
    | false => simp only [PathCmd.letter, pathCommand, h2, PathCmd.vertices, visit_abs]; simp
    | true => simpa [PathCmd.letter, pathCommand, h2, PathCmd.vertices] using fold_rel pre cur (ps.map fun p => p.2)
  | arc r ps =>
    have h2 : chunks7 (PathCmd.arc r ps).args = ps.map fun p => p.2 := chunks7_pairs ps
    cases r with
    | false => simp only [PathCmd.letter, pathCommand, h2, PathCmd.vertices, visit_abs]; simp
    | true => simpa [PathCmd.letter, pathCommand, h2, PathCmd.vertices] using fold_rel pre cur (ps.map fun p => p.2)
  | close r =>
    have := hs rfl
    cases r <;> simp only [PathCmd.letter, pathCommand, PathCmd.vertices, this] <;> simp [this]

/-- A list that ends with a given point, extended. -/
private theorem extend (pre vs : List (ν × ν)) (cur : ν × ν) :
    ∃ pre', pre ++ [cur] ++ vs = pre' ++ [vs.getLast?.getD cur] := by
  cases e : vs.getLast? with
  | none =>
    have : vs = [] := List.getLast?_eq_none_iff.1 e
    subst this
    exact ⟨pre, by simp⟩
  | some q =>
    obtain ⟨ys, rfl⟩ := List.getLast?_eq_some_iff.1 e
    exact ⟨pre ++ [cur] ++ ys, by simp⟩

private theorem head_append (pre vs : List (ν × ν)) (cur : ν × ν) :
    (pre ++ [cur] ++ vs).head? = (pre ++ [cur]).head? := by
  cases pre <;> simp

private theorem loop_rest [Add ν] (cs : List (PathCmd ν)) (pre : List (ν × ν)) (start cur : ν × ν)
    (hz : NoLateClose cs)
    (hs : (pre ++ [cur]).head? = some start ∨ ∀ d ∈ cs, d.isClose = false) :
    (cs.map fun c => ([c.letter], c.args)).foldlM (fun xy c => pathCommand xy c.1 c.2) (pre ++ [cur]) =
      .ok (pre ++ [cur] ++ svgVertices start cur cs) := by
  induction cs generalizing pre start cur with
  | nil => simp [svgVertices, pure, Except.pure]
  | cons c cs ih =>
    have h1 := command_step c pre start cur (by
      intro hc
      rcases hs with h | h
      · exact h
      · have := h c List.mem_cons_self; rw [hc] at this; cases this)
    simp only [List.map_cons, List.foldlM_cons, h1, bind, Except.bind]
    obtain ⟨pre', e⟩ := extend pre (c.vertices start cur) cur
    have := ih pre' (c.newStart start cur) ((c.vertices start cur).getLast?.getD cur) hz.2 (by
      rw [← e, head_append]
      cases hm : c.isMove with
      | true => right; exact hz.1 hm
      | false =>
        have hn : c.newStart start cur = start := by
          cases c <;> first | rfl | (simp [PathCmd.isMove] at hm)
        rw [hn]
        rcases hs with h | h
        · left; exact h
        · right; exact fun d hd => h d (List.mem_cons_of_mem _ hd))
    rw [e, this, ← e]
    simp [svgVertices]

/-- The commands of a path that starts with a move, read in turn. -/
private theorem loop_path [AddZeroClass ν] (r : Bool) (p : ν × ν) (ps : List (ν × ν)) (cs : List (PathCmd ν))
    (hz : NoLateClose cs) :
    pathLoop ((PathCmd.move r p ps :: cs).map fun c => ([c.letter], c.args)) =
      .ok (svgVertices (0, 0) (0, 0) (PathCmd.move r p ps :: cs)) := by
  have h2 : chunks2 (PathCmd.move r p ps).args = p :: ps := chunks2_pairs (p :: ps)
  have hfirst : pathCommand [] [(PathCmd.move r p ps).letter] (PathCmd.move r p ps).args = .ok (p :: visit r p ps) := by
    cases r with
    | false => simp [PathCmd.letter, pathCommand, h2, visit_abs]
    | true =>
      have := fold_relFirst [] p ps
      simp only [PathCmd.letter, pathCommand, h2, if_true, List.foldlM_cons, relFirst, List.getLast?_nil, bind,
        Except.bind]
      simpa using this
  have hv : (PathCmd.move r p ps).vertices (0, 0) (0, 0) = p :: visit r p ps := by
    cases r <;> simp [PathCmd.vertices, visit]
  have hn : (PathCmd.move r p ps).newStart (0, 0) (0, 0) = p := by
    cases r <;> simp [PathCmd.newStart]
  unfold pathLoop
  simp only [List.map_cons, List.foldlM_cons, hfirst, bind, Except.bind]
  obtain ⟨pre', e⟩ := extend [] (visit r p ps) p
  simp only [List.nil_append, List.singleton_append] at e
  have := loop_rest cs pre' p ((visit r p ps).getLast?.getD p) hz (by left; rw [← e]; rfl)
  rw [e, this, ← e]
  have hl : (p :: visit r p ps).getLast?.getD (0, 0) = (visit r p ps).getLast?.getD p := by
    cases h : visit r p ps with
    | nil => rfl
    | cons a l =>
      rw [List.getLast?_cons_cons]
      cases h' : (a :: l).getLast? with
      | none => simp at h'
      | some q => rfl
  rw [svgVertices]
  simp only [hv, hn, hl]

/-! ### Text -/

private theorem letter_cmd (c : PathCmd ν) : isCmd c.letter = true := by
  cases c with
  | move r p ps => cases r <;> rfl
  | line r ps => cases r <;> rfl
  | shortQuad r ps => cases r <;> rfl
  | horiz r ps => cases r <;> rfl
  | vert r ps => cases r <;> rfl
  | cubic r ps => cases r <;> rfl
  | shortCubic r ps => cases r <;> rfl
  | quad r ps => cases r <;> rfl
  | arc r ps => cases r <;> rfl
  | close r => cases r <;> rfl

theorem findNums_args (F : Fmt ν) (hF : F.Faithful) (l : List ν) :
    (findNums (' ' :: joinSpace (l.map F.str))).map F.num = l := by
  rw [findNums_sep _ _ (Or.inr rfl)]
  have key : findNums (joinSpace (l.map F.str)) = l.map F.str := by
    induction l with
    | nil => rfl
    | cons a l ih =>
      cases l with
      | nil =>
        have := findNums_token _ [] (hF a).1 Stop.nil
        simpa [joinSpace, findNums, findNumsFrom] using this
      | cons b l =>
        simp only [List.map_cons, joinSpace] at ih ⊢
        rw [findNums_token _ _ (hF a).1 (stop_sep _ _ (Or.inr rfl)), findNums_sep _ _ (Or.inr rfl), ih]
  rw [key, List.map_map]
  conv_rhs => rw [← List.map_id l]
  exact List.map_congr_left fun x _ => (hF x).2

private theorem args_not_cmd (F : Fmt ν) (hF : F.Faithful) (l : List ν) :
    ∀ c ∈ (' ' :: joinSpace (l.map F.str)), isCmd c = false := by
  intro c hc
  rcases List.mem_cons.1 hc with rfl | hc
  · decide
  · induction l with
    | nil => cases hc
    | cons a l ih =>
      cases l with
      | nil => exact token_not_cmd _ (hF a).1 c hc
      | cons b l =>
        simp only [List.map_cons, joinSpace] at ih hc
        rcases List.mem_append.1 hc with hc | hc
        · exact token_not_cmd _ (hF a).1 c hc
        · rcases List.mem_cons.1 hc with rfl | hc
          · decide
          · exact ih (List.mem_cons_of_mem _ hc) hc

private theorem groups_text (F : Fmt ν) (hF : F.Faithful) (cs : List (PathCmd ν)) :
    groups (F.pathText cs) =
      cs.flatMap fun c => [(true, [c.letter]), (false, ' ' :: joinSpace (c.args.map F.str))] := by
  induction cs with
  | nil => rfl
  | cons c cs ih =>
    have e : F.pathText (c :: cs) = [c.letter] ++ ((' ' :: joinSpace (c.args.map F.str)) ++ F.pathText cs) := by
      simp [Fmt.pathText]
    have h1 := groups_run (' ' :: joinSpace (c.args.map F.str)) (F.pathText cs) false (by simp)
      (args_not_cmd F hF c.args) (by
        intro k hk
        cases cs with
        | nil => cases hk
        | cons d cs => cases hk; exact letter_cmd d)
    have h2 := groups_run [c.letter] ((' ' :: joinSpace (c.args.map F.str)) ++ F.pathText cs) true (by simp)
      (by intro k hk; simp only [List.mem_singleton] at hk; subst hk; exact letter_cmd c) (by
        intro k hk; cases hk; decide)
    rw [e, h2, h1, ih]
    simp

private theorem pairs_text (F : Fmt ν) (hF : F.Faithful) (cs : List (PathCmd ν)) :
    F.pathPairs (F.pathText cs) = cs.map fun c => ([c.letter], c.args) := by
  have hg := groups_text F hF cs
  have hc : pathCommands (F.pathText cs) = cs.map fun c => [c.letter] := by
    unfold pathCommands
    rw [hg]
    clear hg
    induction cs with
    | nil => rfl
    | cons c cs ih => simpa using ih
  have hs : (pathSeqs (F.pathText cs)).map (fun s => (findNums s).map F.num) = cs.map fun c => c.args := by
    unfold pathSeqs
    rw [hg]
    clear hg hc
    induction cs with
    | nil => rfl
    | cons c cs ih =>
      simp only [List.flatMap_cons, List.filter_append, List.map_append, List.map_cons] at ih ⊢
      rw [ih]
      simp [findNums_args F hF]
  have zip_extra : ∀ (l : List (PathCmd ν)) (extra : List (List ν)),
      (l.map fun c => [c.letter]).zip ((l.map fun c => c.args) ++ extra) = l.map fun c => ([c.letter], c.args) := by
    intro l extra
    induction l with
    | nil => simp
    | cons c l ih => simpa using ih
  unfold Fmt.pathPairs
  simp only [hc, hs]
  split
  · exact zip_extra cs [[]]
  · have := zip_extra cs []
    rw [List.append_nil] at this
    exact this

/-- C61. Reading any path text that starts with a move, of any commands with any parameters, gives the vertices of the
path, provided nothing closes after a further move. -/
theorem svg_path_read_partial [AddZeroClass ν] (F : Fmt ν) (hF : F.Faithful) (r : Bool) (p : ν × ν)
    (ps : List (ν × ν)) (cs : List (PathCmd ν)) (hz : NoLateClose cs) :
    F.fromPath (F.pathText (.move r p ps :: cs)) = .ok (svgVertices (0, 0) (0, 0) (.move r p ps :: cs)) := by
  unfold Fmt.fromPath
  rw [pairs_text F hF, loop_path r p ps cs hz]

/-- C61 fails for a path of two closed subpaths: the second is closed to the start of the first. -/
theorem svg_path_two_rings_violated [AddZeroClass ν] (F : Fmt ν) (hF : F.Faithful) (p q s t : ν × ν) :
    let cs : List (PathCmd ν) := [.move false p [q], .close true, .move false s [t], .close true]
    F.fromPath (F.pathText cs) = .ok [p, q, p, s, t, p] ∧ svgVertices (0, 0) (0, 0) cs = [p, q, p, s, t, s] := by
  constructor
  · unfold Fmt.fromPath
    rw [pairs_text F hF]
    rfl
  · rfl

/-- C61 fails for a path text with a blank before its first letter: letters and parameters are paired off by one. Here
a path from `p` to `q` is read as the point `p`. -/
theorem svg_path_blank_violated [AddZeroClass ν] (F : Fmt ν) (hF : F.Faithful) (p q : ν × ν) :
    let cs : List (PathCmd ν) := [.move false p [], .line false [q]]
    F.fromPath (' ' :: F.pathText cs) = .ok [p] ∧ svgVertices (0, 0) (0, 0) cs = [p, q] := by
  constructor
  · have hg : groups (' ' :: F.pathText [.move false p [], .line false [q]]) =
        (false, [' ']) :: groups (F.pathText [.move false p [], .line false [q]]) := by
      have := groups_run [' '] (F.pathText [.move false p [], .line false [q]]) false (by simp)
        (by intro c hc; simp only [List.mem_singleton] at hc; subst hc; decide) (by intro k hk; cases hk; rfl)
      simpa using this
    rw [groups_text F hF] at hg
    have n1 : (findNums (' ' :: joinSpace ([p.1, p.2].map F.str))).map F.num = [p.1, p.2] := findNums_args F hF _
    have n0 : findNums [' '] = [] := rfl
    unfold Fmt.fromPath Fmt.pathPairs pathCommands pathSeqs
    rw [hg]
    simp only [List.map_cons, List.map_nil] at n1
    simp [PathCmd.letter, PathCmd.args, n0, n1, pathLoop, pathCommand, chunks2, bind, Except.bind, pure, Except.pure]
  · rfl

/-- A command that needs a point to start from: horizontal and vertical lines with a target, relative curves and arcs with a target, and closing. -/
def NeedsPoint : PathCmd ν → Prop
  | .horiz _ xs => xs ≠ []
  | .vert _ ys => ys ≠ []
  | .cubic r ps => r = true ∧ ps ≠ []
  | .shortCubic r ps => r = true ∧ ps ≠ []
  | .quad r ps => r = true ∧ ps ≠ []
  | .arc r ps => r = true ∧ ps ≠ []
  | .close _ => True
  | _ => False

/-- C61: reading a path that begins with a command that needs a point to start from raises IndexError, whatever follows. -/
theorem svg_path_no_start [AddZeroClass ν] (F : Fmt ν) (hF : F.Faithful) (c : PathCmd ν) (cs : List (PathCmd ν)) (hc : NeedsPoint c) :
    F.fromPath (F.pathText (c :: cs)) = .error .indexError := by
  unfold Fmt.fromPath
  rw [pairs_text F hF]
  have key : pathCommand ([] : List (ν × ν)) [c.letter] c.args = .error .indexError := by
    cases c with
    | move => exact hc.elim
    | line => exact hc.elim
    | shortQuad => exact hc.elim
    | horiz r xs => cases xs with
      | nil => exact absurd rfl hc
      | cons x xs => cases r <;> rfl
    | vert r xs => cases xs with
      | nil => exact absurd rfl hc
      | cons x xs => cases r <;> rfl
    | cubic r xs => cases xs with
      | nil => exact absurd rfl hc.2
      | cons x xs => obtain ⟨rfl, _⟩ := hc; rfl
    | shortCubic r xs => cases xs with
      | nil => exact absurd rfl hc.2
      | cons x xs => obtain ⟨rfl, _⟩ := hc; rfl
    | quad r xs => cases xs with
      | nil => exact absurd rfl hc.2
      | cons x xs => obtain ⟨rfl, _⟩ := hc; rfl
    | arc r xs => cases xs with
      | nil => exact absurd rfl hc.2
      | cons x xs => obtain ⟨rfl, _⟩ := hc; rfl
    | close r => cases r <;> rfl
  show (List.foldlM _ _ _) = _
  rw [List.map_cons, List.foldlM_cons, key]
  rfl

example : intFmt.fromPath "H 3 L 1 2".toList = .error .indexError := by decide +kernel

example : intFmt.fromPath "m 1 2 l 3 0 0 4 H 9 v -2 c 0 0 1 1 5 5 a 1 1 0 0 1 2 2 z ".toList =
    .ok [(1, 2), (4, 2), (4, 6), (9, 6), (9, 4), (14, 9), (16, 11), (1, 2)] := by decide +kernel
example : svgVertices (0, 0) (0, 0) [PathCmd.move true ((1, 2) : ℤ × ℤ) [], .line true [(3, 0), (0, 4)],
    .horiz false [9], .vert true [-2], .cubic true [((0, 0), (1, 1), (5, 5))],
    .arc true [((1, 1, 0, 0, 1), (2, 2))], .close true] =
    [(1, 2), (4, 2), (4, 6), (9, 6), (9, 4), (14, 9), (16, 11), (1, 2)] := by decide +kernel

end Glimpse.Svg
