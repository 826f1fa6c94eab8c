import Verif.Model.Matches
import Mathlib.Tactic.Linarith
import Mathlib.Data.Rat.Defs
import Mathlib.Algebra.Order.Field.Rat
import Mathlib.Data.List.Nodup
import Mathlib.Data.List.GetD
import Mathlib.Data.List.Sort
import Mathlib.Data.List.Perm.Basic

/-!
C48: filtering matches keeps exactly those that meet the criteria, with all arrays aligned.
-/
set_option autoImplicit false
set_option linter.unusedSimpArgs false

namespace Glimpse.Matches

variable {Pt E : Type} [Field E] [LinearOrder E]

/-! ### Specification -/

/-- `argsort` gives the indices of a list by descending value, equal values in any order. -/
def Argsort (argsort : List E → List Nat) : Prop :=
  ∀ l, (argsort l).Perm (List.range l.length) ∧
    (argsort l).Pairwise fun i j => ∀ x y, l[i]? = some x → l[j]? = some y → y ≤ x

/-- `T` is a choice of the `n` elements of greatest weight (all, if there are fewer). -/
def IsBest (ws : List E) (n : Nat) (T : List Nat) : Prop :=
  T.Nodup ∧ (∀ i ∈ T, i < ws.length) ∧ T.length = min n ws.length ∧
    ∀ i ∈ T, ∀ j, j < ws.length → j ∉ T → ∀ x y, ws[i]? = some x → ws[j]? = some y → y ≤ x

/-- An optional limit, `None` and zero meaning no limit. -/
def Limit {γ : Type} [Zero γ] (x : Option γ) (P : γ → Prop) : Prop := ∀ y, x = some y → y ≠ 0 → P y

/-- Match `i` of the arrays `a` and `b` meets the criteria on errors and distances for the reference camera. -/
def Meets (G : Geo Pt E) (k : Kind) (args : Args E) (own other : Pt) : Prop :=
  (Limit args.maxError fun m =>
    G.dist own (G.proj k args.cam other) ≤ if args.scaled then m * G.width args.cam else m) ∧
  (Limit args.maxDistance fun m =>
    G.dist (G.scale args.cam other) own ≤ if args.scaled then m * G.width args.cam else m)

/-! ### Lists -/

/-- The elements at the given places. -/
def At {γ : Type} (idx : List Nat) (l l' : List γ) : Prop := l'.map some = idx.map fun i => l[i]?

private theorem mask_ok {γ : Type} (sel : List Bool) (l r : List γ) (h : mask sel l = .ok r) :
    sel.length = l.length ∧ r = ((sel.zip l).filter fun x => x.1).map fun x => x.2 := by
  unfold mask at h
  split at h
  · cases h; exact ⟨by assumption, rfl⟩
  · cases h

/-- The indices that are selected. -/
private def chosen (sel : List Bool) : List Nat := (List.range sel.length).filter fun i => sel.getD i false

private theorem filter_at {γ : Type} (sel : List Bool) (l : List γ) (h : sel.length = l.length) :
    At (chosen sel) l (((sel.zip l).filter fun x => x.1).map fun x => x.2) := by
  unfold At chosen
  induction sel generalizing l with
  | nil => cases l <;> simp at h ⊢
  | cons b sel ih =>
    cases l with
    | nil => simp at h
    | cons x l =>
      have h' : sel.length = l.length := by simpa using h
      have e := ih l h'
      rw [List.length_cons, List.range_succ_eq_map, List.filter_cons, List.filter_map, List.zip_cons_cons,
        List.filter_cons]
      have e2 : (List.map Nat.succ (List.filter ((fun i => (b :: sel).getD i false) ∘ Nat.succ)
          (List.range sel.length))).map (fun i => (x :: l)[i]?) =
          ((List.range sel.length).filter fun i => sel.getD i false).map fun i => l[i]? := by
        rw [List.map_map]
        rfl
      cases b with
      | false => simpa [e] using e2.symm
      | true =>
        simp only [List.getD_cons_zero, if_true, List.map_cons, List.getElem?_cons_zero, e]
        rw [e2]

private theorem scatter_zip {γ : Type} (f : γ → Bool) (sel : List Bool) (l : List γ) (h : sel.length = l.length) :
    scatter sel ((((sel.zip l).filter fun x => x.1).map fun x => x.2).map f) = sel.zipWith (fun b x => b && f x) l := by
  induction sel generalizing l with
  | nil => rfl
  | cons b sel ih =>
    cases l with
    | nil => simp at h
    | cons x l =>
      have h' : sel.length = l.length := by simpa using h
      cases b with
      | false =>
        have := ih l h'
        rw [List.map_map] at this
        simp [scatter, this]
      | true =>
        have := ih l h'
        rw [List.map_map] at this
        simp [scatter, this]

private theorem filter_zipWith {γ δ : Type} (f : γ → γ → δ) (sel : List Bool) (a b : List γ)
    (ha : sel.length = a.length) (hb : sel.length = b.length) :
    ((((sel.zip a).filter fun x => x.1).map fun x => x.2).zipWith f (((sel.zip b).filter fun x => x.1).map fun x => x.2))
      = (((sel.zip (a.zip b)).filter fun x => x.1).map fun x => x.2).map fun p => f p.1 p.2 := by
  induction sel generalizing a b with
  | nil => rfl
  | cons s sel ih =>
    cases a with
    | nil => simp at ha
    | cons x a =>
      cases b with
      | nil => simp at hb
      | cons y b =>
        have := ih a b (by simpa using ha) (by simpa using hb)
        cases s with
        | false => simpa using this
        | true => simpa using this

/-- What a selection means. -/
private def Sel (sel : List Bool) (n : Nat) (P : Nat → Prop) : Prop :=
  sel.length = n ∧ ∀ i, i < n → (sel.getD i false = true ↔ P i)

private theorem sel_zipWith {γ : Type} (f : γ → Bool) (sel : List Bool) (n : Nat) (P : Nat → Prop) (hs : Sel sel n P)
    (l : List γ) (hl : l.length = n) :
    Sel (sel.zipWith (fun b x => b && f x) l) n (fun i => P i ∧ ∀ x, l[i]? = some x → f x = true) := by
  obtain ⟨h1, h2⟩ := hs
  refine ⟨by simp [h1, hl], ?_⟩
  intro i hi
  rw [List.getD_eq_getElem?_getD, List.getElem?_zipWith]
  have e := h2 i hi
  rw [List.getD_eq_getElem?_getD] at e
  rw [List.getElem?_eq_getElem (by omega : i < sel.length)] at e ⊢
  rw [List.getElem?_eq_getElem (by omega : i < l.length)]
  simp at e ⊢
  rw [e]
  constructor
  · rintro ⟨f1, f2⟩
    refine ⟨f1, fun x hx => ?_⟩
    rw [List.getElem?_eq_getElem (by omega : i < l.length)] at hx
    cases hx
    exact f2
  · rintro ⟨f1, f2⟩
    exact ⟨f1, f2 _ (List.getElem?_eq_getElem (by omega : i < l.length))⟩

private theorem sel_replicate (n : Nat) : Sel (List.replicate n true) n fun _ => True := by
  refine ⟨by simp, ?_⟩
  intro i hi
  rw [List.getD_eq_getElem _ _ (by simpa using hi)]
  simp

private theorem truthyE_iff (x : Option E) (y : E) : truthyE x = some y ↔ x = some y ∧ y ≠ 0 := by
  unfold truthyE; cases x <;> simp [Option.filter]
  rename_i z
  constructor
  · rintro ⟨h, rfl⟩; exact ⟨rfl, h⟩
  · rintro ⟨rfl, h⟩; exact ⟨h, rfl⟩

private theorem truthyN_iff (x : Option Nat) (y : Nat) : truthyN x = some y ↔ x = some y ∧ y ≠ 0 := by
  unfold truthyN; cases x <;> simp [Option.filter]
  rename_i z
  constructor
  · rintro ⟨h, rfl⟩; exact ⟨rfl, h⟩
  · rintro ⟨rfl, h⟩; exact ⟨h, rfl⟩

/-- The first of the sorted are the best. -/
private theorem best_take (argsort : List E → List Nat) (ha : Argsort argsort) (ws : List E) (n : Nat) :
    IsBest ws n ((argsort ws).take (min n ws.length)) := by
  obtain ⟨hp, hs⟩ := ha ws
  have hnd : (argsort ws).Nodup := hp.nodup_iff.2 List.nodup_range
  refine ⟨hnd.sublist (List.take_sublist _ _), ?_, ?_, ?_⟩
  · intro i hi
    simpa using hp.mem_iff.1 (List.mem_of_mem_take hi)
  · rw [List.length_take, hp.length_eq, List.length_range]; omega
  · intro i hi j hj hjn x y hx hy
    have hjm : j ∈ argsort ws := hp.mem_iff.2 (by simpa using hj)
    rw [← List.take_append_drop (min n ws.length) (argsort ws)] at hjm hs
    rcases List.mem_append.1 hjm with h | h
    · exact absurd h hjn
    · exact (List.pairwise_append.1 hs).2.2 i hi j h x y hx hy

private theorem drop_iff_take {γ : Type} (l : List γ) (hl : l.Nodup) (m : Nat) (x : γ) (hx : x ∈ l) :
    x ∉ l.drop m ↔ x ∈ l.take m := by
  have hl' := hl
  rw [← List.take_append_drop m l] at hx hl'
  have hd := (List.nodup_append.1 hl').2.2
  constructor
  · intro h
    exact (List.mem_append.1 hx).resolve_right h
  · intro h h'
    exact hd x h x h' rfl

/-- Selection by weight. -/
private theorem byWeight_spec (argsort : List E → List Nat) (ha : Argsort argsort) (s : Arrays Pt E) (a : Args E)
    (n : Nat) (hw : ∀ ws, s.weights = some ws → ws.length = n) (sel : List Bool)
    (h : byWeight argsort s a (List.replicate n true) = .ok sel) :
    ∃ T : List Nat, (∀ m, a.nBest = some m → m ≠ 0 → ∃ ws, s.weights = some ws ∧ IsBest ws m T) ∧
      (∀ m, a.minWeight = some m → m ≠ 0 → s.weights ≠ none) ∧
      Sel sel n fun i => (∀ m, a.nBest = some m → m ≠ 0 → i ∈ T) ∧
        Limit a.minWeight fun m => ∀ ws w, s.weights = some ws → ws[i]? = some w → m ≤ w := by
  unfold byWeight at h
  cases hws : s.weights with
  | none =>
    rw [hws] at h
    simp only at h
    split at h
    · cases h
    · rename_i hno
      push Not at hno
      cases h
      have n1 : truthyN a.nBest = none := by cases hx : truthyN a.nBest <;> simp_all
      have n2 : truthyE a.minWeight = none := by cases hx : truthyE a.minWeight <;> simp_all
      have m1 : ∀ m, a.nBest = some m → m ≠ 0 → False := fun m h1 h2 => by
        rw [(truthyN_iff _ m).2 ⟨h1, h2⟩] at n1; cases n1
      have m2 : ∀ m, a.minWeight = some m → m ≠ 0 → False := fun m h1 h2 => by
        rw [(truthyE_iff _ m).2 ⟨h1, h2⟩] at n2; cases n2
      refine ⟨[], fun m h1 h2 => (m1 m h1 h2).elim, fun m h1 h2 => (m2 m h1 h2).elim, ?_⟩
      obtain ⟨r1, r2⟩ := sel_replicate n
      refine ⟨r1, fun i hi => (r2 i hi).trans ⟨fun _ => ⟨fun m h1 h2 => (m1 m h1 h2).elim, fun m h1 h2 => (m2 m h1 h2).elim⟩,
        fun _ => trivial⟩⟩
  | some ws =>
    rw [hws] at h
    simp only at h
    have hlen := hw ws hws
    split at h
    · cases h
    · cases h
      -- best
      have hb : ∃ T : List Nat, (∀ m, a.nBest = some m → m ≠ 0 → IsBest ws m T) ∧
          Sel (selectBest argsort ws (truthyN a.nBest) (List.replicate n true)) n
            fun i => ∀ m, a.nBest = some m → m ≠ 0 → i ∈ T := by
        cases hx : truthyN a.nBest with
        | none =>
          have m1 : ∀ m, a.nBest = some m → m ≠ 0 → False := fun m h1 h2 => by
            rw [(truthyN_iff _ m).2 ⟨h1, h2⟩] at hx; cases hx
          refine ⟨[], fun m h1 h2 => (m1 m h1 h2).elim, ?_⟩
          obtain ⟨r1, r2⟩ := sel_replicate n
          exact ⟨r1, fun i hi => (r2 i hi).trans ⟨fun _ m h1 h2 => (m1 m h1 h2).elim, fun _ => trivial⟩⟩
        | some m =>
          obtain ⟨h1, h2⟩ := (truthyN_iff _ m).1 hx
          have hp := (ha ws).1
          refine ⟨(argsort ws).take (min m ws.length), ?_, ?_⟩
          · intro m' h1' _
            rw [h1] at h1'; cases h1'
            exact best_take argsort ha ws m
          · simp only [selectBest, List.length_replicate]
            refine ⟨by simp, ?_⟩
            intro i hi
            rw [List.getD_eq_getElem _ _ (by simpa using hi)]
            have hi' : i ∈ argsort ws := hp.mem_iff.2 (by simpa [hlen] using hi)
            simp only [List.getElem_map, List.getElem_range, Bool.and_eq_true, decide_eq_true_eq]
            rw [List.getD_eq_getElem _ _ (by simpa using hi), List.getElem_replicate, hlen,
              drop_iff_take _ (hp.nodup_iff.2 List.nodup_range) _ _ hi']
            constructor
            · rintro ⟨_, h⟩ _ _ _; exact h
            · intro h; exact ⟨rfl, h m h1 h2⟩
      obtain ⟨T, hT, hS⟩ := hb
      refine ⟨T, fun m h1 h2 => ⟨ws, rfl, hT m h1 h2⟩, fun _ _ _ h => (by cases h), ?_⟩
      cases hx : truthyE a.minWeight with
      | none =>
        have m2 : ∀ m, a.minWeight = some m → m ≠ 0 → False := fun m h1 h2 => by
          rw [(truthyE_iff _ m).2 ⟨h1, h2⟩] at hx; cases hx
        refine ⟨hS.1, fun i hi => (hS.2 i hi).trans ⟨fun h => ⟨h, fun m h1 h2 => (m2 m h1 h2).elim⟩, fun h => h.1⟩⟩
      | some m =>
        obtain ⟨h1, h2⟩ := (truthyE_iff _ m).1 hx
        have z := sel_zipWith (fun w => decide (m ≤ w)) _ n _ hS ws hlen
        refine ⟨z.1, fun i hi => (z.2 i hi).trans ?_⟩
        constructor
        · rintro ⟨g1, g2⟩
          refine ⟨g1, ?_⟩
          intro m' h1' _ ws' w hws' hw'
          rw [h1] at h1'; cases h1'; cases hws'
          simpa using g2 w hw'
        · rintro ⟨g1, g2⟩
          exact ⟨g1, fun x hx' => by simpa using g2 m h1 h2 ws x rfl hx'⟩

/-- Selection by error, for arrays that `observed` and `predicted` both use. -/
private theorem byError_spec (G : Geo Pt E) (k : Kind) (s : Arrays Pt E) (a : Args E) (p : List Pt × List Pt) (n : Nat)
    (hobs : observedOf k s = .ok p) (hsrc : sourceOf k s = .ok p) (h1 : p.1.length = n) (h2 : p.2.length = n)
    (sel sel' : List Bool) (P : Nat → Prop) (hs : Sel sel n P) (h : byError G k s a sel = .ok sel') :
    Sel sel' n fun i => P i ∧ ∀ own other, (side a.cam p)[i]? = some own → (side (!a.cam) p)[i]? = some other →
      Limit a.maxError fun m =>
        G.dist own (G.proj k a.cam other) ≤ if a.scaled then m * G.width a.cam else m := by
  have hl : ∀ c, (side c p).length = n := by intro c; cases c <;> simp [side, h1, h2]
  unfold byError at h
  cases hx : truthyE a.maxError with
  | none =>
    rw [hx] at h
    cases h
    have m2 : ∀ m, a.maxError = some m → m ≠ 0 → False := fun m g1 g2 => by
      rw [(truthyE_iff _ m).2 ⟨g1, g2⟩] at hx; cases hx
    exact ⟨hs.1, fun i hi => (hs.2 i hi).trans
      ⟨fun g => ⟨g, fun _ _ _ _ m g1 g2 => (m2 m g1 g2).elim⟩, fun g => g.1⟩⟩
  | some m =>
    rw [hx] at h
    obtain ⟨g1, g2⟩ := (truthyE_iff _ m).1 hx
    simp only [bind, Except.bind, hobs, predicted, hsrc] at h
    cases hm1 : mask sel (side a.cam p) with
    | error e => rw [hm1] at h; cases h
    | ok uv =>
      rw [hm1] at h
      simp only at h
      cases hc : G.check k with
      | error e => rw [hc] at h; cases h
      | ok u =>
        rw [hc] at h
        simp only at h
        cases hm2 : mask sel (side (!a.cam) p) with
        | error e => rw [hm2] at h; cases h
        | ok pts =>
          rw [hm2] at h
          simp only at h
          obtain ⟨e1, rfl⟩ := mask_ok _ _ _ hm1
          obtain ⟨e2, rfl⟩ := mask_ok _ _ _ hm2
          rw [List.zipWith_map_right, filter_zipWith (fun x y => G.dist x (G.proj k a.cam y)) sel _ _ e1 e2,
            List.map_map, scatter_zip _ sel _ (by rw [List.length_zip, hl, hl, hs.1]; simp)] at h
          cases h
          have z := sel_zipWith ((fun e => decide (e ≤ if a.scaled then m * G.width a.cam else m)) ∘
            fun q : Pt × Pt => G.dist q.1 (G.proj k a.cam q.2)) sel n P hs ((side a.cam p).zip (side (!a.cam) p))
            (by rw [List.length_zip, hl, hl]; simp)
          refine ⟨z.1, fun i hi => (z.2 i hi).trans ?_⟩
          constructor
          · rintro ⟨f1, f2⟩
            refine ⟨f1, ?_⟩
            intro own other ho hot m' g1' _
            rw [g1] at g1'; cases g1'
            have := f2 (own, other) (List.getElem?_zip_eq_some.2 ⟨ho, hot⟩)
            simpa using this
          · rintro ⟨f1, f2⟩
            refine ⟨f1, ?_⟩
            intro q hq
            obtain ⟨ho, hot⟩ := List.getElem?_zip_eq_some.1 hq
            simpa using f2 q.1 q.2 ho hot m g1 g2

/-- Selection by distance. -/
private theorem byDistance_spec (G : Geo Pt E) (k : Kind) (s : Arrays Pt E) (a : Args E) (p : List Pt × List Pt) (n : Nat)
    (hobs : observedOf k s = .ok p) (h1 : p.1.length = n) (h2 : p.2.length = n)
    (sel sel' : List Bool) (P : Nat → Prop) (hs : Sel sel n P) (h : byDistance G k s a sel = .ok sel') :
    Sel sel' n fun i => P i ∧ ∀ own other, (side a.cam p)[i]? = some own → (side (!a.cam) p)[i]? = some other →
      Limit a.maxDistance fun m =>
        G.dist (G.scale a.cam other) own ≤ if a.scaled then m * G.width a.cam else m := by
  have hl : ∀ c, (side c p).length = n := by intro c; cases c <;> simp [side, h1, h2]
  unfold byDistance at h
  cases hx : truthyE a.maxDistance with
  | none =>
    rw [hx] at h
    cases h
    have m2 : ∀ m, a.maxDistance = some m → m ≠ 0 → False := fun m g1 g2 => by
      rw [(truthyE_iff _ m).2 ⟨g1, g2⟩] at hx; cases hx
    exact ⟨hs.1, fun i hi => (hs.2 i hi).trans
      ⟨fun g => ⟨g, fun _ _ _ _ m g1 g2 => (m2 m g1 g2).elim⟩, fun g => g.1⟩⟩
  | some m =>
    rw [hx] at h
    obtain ⟨g1, g2⟩ := (truthyE_iff _ m).1 hx
    simp only at h
    split at h
    · simp only [bind, Except.bind, hobs] at h
      cases hm2 : mask sel (side (!a.cam) p) with
      | error e => rw [hm2] at h; cases h
      | ok pts =>
        rw [hm2] at h
        simp only at h
        cases hm1 : mask sel (side a.cam p) with
        | error e => rw [hm1] at h; cases h
        | ok uv =>
          rw [hm1] at h
          simp only at h
          obtain ⟨e1, rfl⟩ := mask_ok _ _ _ hm1
          obtain ⟨e2, rfl⟩ := mask_ok _ _ _ hm2
          rw [List.zipWith_map_left, filter_zipWith (fun x y => G.dist (G.scale a.cam x) y) sel _ _ e2 e1,
            List.map_map, scatter_zip _ sel _ (by rw [List.length_zip, hl, hl, hs.1]; simp)] at h
          cases h
          have z := sel_zipWith ((fun e => decide (e ≤ if a.scaled then m * G.width a.cam else m)) ∘
            fun q : Pt × Pt => G.dist (G.scale a.cam q.1) q.2) sel n P hs ((side (!a.cam) p).zip (side a.cam p))
            (by rw [List.length_zip, hl, hl]; simp)
          refine ⟨z.1, fun i hi => (z.2 i hi).trans ?_⟩
          constructor
          · rintro ⟨f1, f2⟩
            refine ⟨f1, ?_⟩
            intro own other ho hot m' g1' _
            rw [g1] at g1'; cases g1'
            have := f2 (other, own) (List.getElem?_zip_eq_some.2 ⟨hot, ho⟩)
            simpa using this
          · rintro ⟨f1, f2⟩
            refine ⟨f1, ?_⟩
            intro q hq
            obtain ⟨hot, ho⟩ := List.getElem?_zip_eq_some.1 hq
            simpa using f2 q.2 q.1 ho hot m g1 g2
    · rename_i hany
      cases h
      refine ⟨hs.1, fun i hi => ?_⟩
      have hf : sel.getD i false = false := by
        rw [List.getD_eq_getElem _ _ (by rw [hs.1]; exact hi)]
        by_contra hc
        exact hany (List.any_eq_true.2 ⟨_, List.getElem_mem _, by simpa using hc⟩)
      rw [hf]
      constructor
      · intro hc; cases hc
      · rintro ⟨hP, _⟩
        have := (hs.2 i hi).2 hP
        rw [hf] at this
        exact this

private theorem chosen_mem (sel : List Bool) (n : Nat) (P : Nat → Prop) (hs : Sel sel n P) (i : Nat) :
    i ∈ chosen sel ↔ i < n ∧ P i := by
  unfold chosen
  rw [List.mem_filter, List.mem_range, hs.1]
  constructor
  · rintro ⟨h1, h2⟩; exact ⟨h1, (hs.2 i h1).1 h2⟩
  · rintro ⟨h1, h2⟩; exact ⟨h1, (hs.2 i h1).2 h2⟩

private theorem maskPair_ok (sel : List Bool) (p q : List Pt × List Pt) (h : maskPair sel p = .ok q) :
    At (chosen sel) p.1 q.1 ∧ At (chosen sel) p.2 q.2 := by
  unfold maskPair at h
  simp only [bind, Except.bind] at h
  cases h1 : mask sel p.1 with
  | error e => rw [h1] at h; cases h
  | ok a =>
    rw [h1] at h
    simp only at h
    cases h2 : mask sel p.2 with
    | error e => rw [h2] at h; cases h
    | ok b =>
      rw [h2] at h
      cases h
      obtain ⟨e1, r1⟩ := mask_ok _ _ _ h1
      obtain ⟨e2, r2⟩ := mask_ok _ _ _ h2
      rw [r1, r2]
      exact ⟨filter_at sel _ e1, filter_at sel _ e2⟩

/-- C48. For `Matches` and for `RotationMatchesXY` without image coordinates, with arrays of equal length: when `filter`
returns, there are indices in increasing order, such that the two arrays of points and the weights hold exactly the
elements at those indices, and an index is among them exactly if it is one of the `n_best` (if given) matches of greatest
weight, its weight is at least `min_weight`, and error and distance are at most the maxima (if given). -/
theorem matches_filter_partial (G : Geo Pt E) (argsort : List E → List Nat) (ha : Argsort argsort) (k : Kind)
    (s s' : Arrays Pt E) (a : Args E) (p : List Pt × List Pt) (n : Nat)
    (hk : (k = .plain ∧ s.uvs = some p) ∨ (k = .xy ∧ s.uvs = none ∧ s.xys = some p))
    (h1 : p.1.length = n) (h2 : p.2.length = n) (hw : ∀ ws, s.weights = some ws → ws.length = n)
    (h : filterMatches G argsort k s a = .ok s') :
    ∃ (idx T : List Nat) (q : List Pt × List Pt), idx.Pairwise (· < ·) ∧
      ((k = .plain ∧ s'.uvs = some q ∧ s'.xys = s.xys) ∨ (k = .xy ∧ s'.uvs = none ∧ s'.xys = some q)) ∧
      At idx p.1 q.1 ∧ At idx p.2 q.2 ∧
      (s.weights = none → s'.weights = none) ∧
      (∀ ws, s.weights = some ws → ∃ ws', s'.weights = some ws' ∧ At idx ws ws') ∧
      (∀ m, a.nBest = some m → m ≠ 0 → ∃ ws, s.weights = some ws ∧ IsBest ws m T) ∧
      (∀ m, a.minWeight = some m → m ≠ 0 → s.weights ≠ none) ∧
      (∀ i, i ∈ idx ↔ i < n ∧ (∀ m, a.nBest = some m → m ≠ 0 → i ∈ T) ∧
        (Limit a.minWeight fun m => ∀ ws w, s.weights = some ws → ws[i]? = some w → m ≤ w) ∧
        (∀ own other, (side a.cam p)[i]? = some own → (side (!a.cam) p)[i]? = some other →
          Meets G k a own other)) := by
  have hobs : observedOf k s = .ok p := by
    rcases hk with ⟨rfl, hu⟩ | ⟨rfl, _, hx⟩ <;> simp [observedOf, *]
  have hsrc : sourceOf k s = .ok p := by
    rcases hk with ⟨rfl, hu⟩ | ⟨rfl, _, hx⟩ <;> simp [sourceOf, *]
  have hsize : sizeOf k s = .ok n := by
    rcases hk with ⟨rfl, hu⟩ | ⟨rfl, _, hx⟩ <;> simp [sizeOf, *]
  unfold filterMatches at h
  simp only [bind, Except.bind, hsize] at h
  cases e1 : byWeight argsort s a (List.replicate n true) with
  | error e => rw [e1] at h; cases h
  | ok s1 =>
    rw [e1] at h
    simp only at h
    cases e2 : byError G k s a s1 with
    | error e => rw [e2] at h; cases h
    | ok s2 =>
      rw [e2] at h
      simp only at h
      cases e3 : byDistance G k s a s2 with
      | error e => rw [e3] at h; cases h
      | ok s3 =>
        rw [e3] at h
        simp only at h
        obtain ⟨T, hT, hmw, hS1⟩ := byWeight_spec argsort ha s a n hw s1 e1
        have hS2 := byError_spec G k s a p n hobs hsrc h1 h2 s1 s2 _ hS1 e2
        have hS3 := byDistance_spec G k s a p n hobs h1 h2 s2 s3 _ hS2 e3
        cases e4 : applyPoints s s3 with
        | error e => rw [e4] at h; cases h
        | ok t =>
          rw [e4] at h
          simp only at h
          have hpts : ∃ q, ((k = .plain ∧ t.uvs = some q ∧ t.xys = s.xys) ∨ (k = .xy ∧ t.uvs = none ∧ t.xys = some q)) ∧
              t.weights = s.weights ∧ At (chosen s3) p.1 q.1 ∧ At (chosen s3) p.2 q.2 := by
            unfold applyPoints at e4
            rcases hk with ⟨rfl, hu⟩ | ⟨rfl, hu, hx⟩
            · simp only [hu, bind, Except.bind] at e4
              cases e5 : maskPair s3 p with
              | error e => rw [e5] at e4; cases e4
              | ok q =>
                rw [e5] at e4
                cases e4
                exact ⟨q, Or.inl ⟨rfl, rfl, rfl⟩, rfl, maskPair_ok s3 p q e5⟩
            · simp only [hu, hx, bind, Except.bind] at e4
              cases e5 : maskPair s3 p with
              | error e => rw [e5] at e4; cases e4
              | ok q =>
                rw [e5] at e4
                cases e4
                exact ⟨q, Or.inr ⟨rfl, rfl, rfl⟩, rfl, maskPair_ok s3 p q e5⟩
          obtain ⟨q, hq, htw, hq1, hq2⟩ := hpts
          have hres : s'.uvs = t.uvs ∧ s'.xys = t.xys ∧ (s.weights = none → s'.weights = none) ∧
              (∀ ws, s.weights = some ws → ∃ ws', s'.weights = some ws' ∧ At (chosen s3) ws ws') := by
            unfold applyWeights at h
            rw [htw] at h
            cases hws : s.weights with
            | none =>
              rw [hws] at h
              cases h
              exact ⟨rfl, rfl, fun _ => htw.trans hws, fun ws hc => by cases hc⟩
            | some ws =>
              rw [hws] at h
              simp only [bind, Except.bind] at h
              cases e6 : mask s3 ws with
              | error e => rw [e6] at h; cases h
              | ok ws' =>
                rw [e6] at h
                cases h
                refine ⟨rfl, rfl, fun hc => (by cases hc), ?_⟩
                intro ws0 hc
                cases hc
                obtain ⟨e7, rfl⟩ := mask_ok _ _ _ e6
                exact ⟨_, rfl, filter_at s3 _ e7⟩
          obtain ⟨r1, r2, r3, r4⟩ := hres
          rw [← r1, ← r2] at hq
          refine ⟨chosen s3, T, q, List.pairwise_lt_range.filter _, hq, hq1, hq2, r3, r4, hT, hmw, ?_⟩
          intro i
          rw [chosen_mem s3 n _ hS3 i]
          constructor
          · rintro ⟨hi, ⟨⟨f1, f2⟩, f3⟩, f4⟩
            exact ⟨hi, f1, f2, fun own other ho hot => ⟨f3 own other ho hot, f4 own other ho hot⟩⟩
          · rintro ⟨hi, f1, f2, f3⟩
            exact ⟨hi, ⟨⟨f1, f2⟩, fun own other ho hot => (f3 own other ho hot).1⟩,
              fun own other ho hot => (f3 own other ho hot).2⟩

/-- Consequence: never more than `n_best` are kept. -/
theorem matches_filter_at_most (T idx : List Nat) (ws : List E) (n : Nat) (hT : IsBest ws n T)
    (hidx : idx.Pairwise (· < ·)) (hsub : ∀ i ∈ idx, i ∈ T) : idx.length ≤ n := by
  have hnd : idx.Nodup := hidx.imp fun h => ne_of_lt h
  have := (List.subperm_of_subset hnd hsub).length_le
  have := hT.2.2.1
  omega

/-! ### Where the claim fails -/

private theorem applyWeights_pts (s s' : Arrays Pt E) (sel : List Bool) (h : applyWeights s sel = .ok s') :
    s'.uvs = s.uvs ∧ s'.xys = s.xys := by
  unfold applyWeights at h
  cases hws : s.weights with
  | none => rw [hws] at h; cases h; exact ⟨rfl, rfl⟩
  | some ws =>
    rw [hws] at h
    simp only [bind, Except.bind] at h
    cases e6 : mask sel ws with
    | error e => rw [e6] at h; cases h
    | ok ws' => rw [e6] at h; cases h; exact ⟨rfl, rfl⟩

/-- C48 is false of a matches object that has both image and camera coordinates (`RotationMatches`, or
`RotationMatchesXY` made from image coordinates): `filter` never changes the camera coordinates, from which predictions
are made, whatever is dropped. -/
theorem rotation_filter_violated (G : Geo Pt E) (argsort : List E → List Nat) (k : Kind) (s s' : Arrays Pt E)
    (a : Args E) (huv : s.uvs ≠ none) (h : filterMatches G argsort k s a = .ok s') : s'.xys = s.xys := by
  unfold filterMatches at h
  simp only [bind, Except.bind] at h
  cases e0 : sizeOf k s with
  | error e => rw [e0] at h; cases h
  | ok n =>
    rw [e0] at h
    simp only at h
    cases e1 : byWeight argsort s a (List.replicate n true) with
    | error e => rw [e1] at h; cases h
    | ok s1 =>
      rw [e1] at h
      simp only at h
      cases e2 : byError G k s a s1 with
      | error e => rw [e2] at h; cases h
      | ok s2 =>
        rw [e2] at h
        simp only at h
        cases e3 : byDistance G k s a s2 with
        | error e => rw [e3] at h; cases h
        | ok s3 =>
          rw [e3] at h
          simp only at h
          cases e4 : applyPoints s s3 with
          | error e => rw [e4] at h; cases h
          | ok t =>
            rw [e4] at h
            simp only at h
            rw [(applyWeights_pts t s' s3 h).2]
            unfold applyPoints at e4
            cases hu : s.uvs with
            | none => exact absurd hu huv
            | some p =>
              simp only [hu, bind, Except.bind] at e4
              cases e5 : maskPair s3 p with
              | error e => rw [e5] at e4; cases e4
              | ok q => rw [e5] at e4; cases e4; rfl

/-- `RotationMatchesXYZ` cannot be filtered by error or (if any match is left) distance: it raises TypeError. -/
theorem rotation_xyz_filter_raises_violated (G : Geo Pt E) (argsort : List E → List Nat) (s : Arrays Pt E) (a : Args E)
    (p : List Pt × List Pt) (hx : s.xys = some p) (hb : a.nBest = none) (hm : a.minWeight = none) (m : E) (hm0 : m ≠ 0)
    (he : a.maxError = some m) : filterMatches G argsort .xyz s a = .error .typeError := by
  have h1 : byWeight argsort s a (List.replicate p.1.length true) = .ok (List.replicate p.1.length true) := by
    unfold byWeight
    cases s.weights <;> simp [hb, hm, truthyN, truthyE, selectBest, selectWeight]
  have h2 : ∀ sel, byError G .xyz s a sel = .error .typeError := by
    intro sel
    unfold byError
    rw [(truthyE_iff a.maxError m).2 ⟨he, hm0⟩]
    rfl
  unfold filterMatches
  simp [bind, Except.bind, sizeOf, hx, h1, h2]

/-- A `RotationMatchesXY` cannot be made from camera coordinates alone, as documented: `__init__` raises AttributeError. -/
theorem rotation_xy_only_violated (s : Arrays Pt E) (h : s.uvs = none) :
    testMatches false s = .error .attributeError := by
  simp [testMatches, h]

/-- A new object is accepted exactly if its cameras are two objects and its points are pairs. -/
theorem matches_new_ok_iff (same : Bool) (s : Arrays Pt E) :
    testMatches same s = .ok () ↔ same = false ∧ ∃ p, s.uvs = some p ∧ p.1.length = p.2.length := by
  unfold testMatches
  cases same with
  | true => simp
  | false =>
    cases hu : s.uvs with
    | none => simp
    | some p => by_cases h : p.1.length = p.2.length <;> simp [h]

/-- A limit of zero is no limit: with only `n_best = 0` ("maximum number of matches to keep") all are kept. -/
theorem filter_zero_violated (G : Geo Pt E) (argsort : List E → List Nat) (s : Arrays Pt E) (p : List Pt × List Pt)
    (a : Args E) (hu : s.uvs = some p) (hlen : p.2.length = p.1.length)
    (hw : ∀ ws, s.weights = some ws → ws.length = p.1.length) (hb : a.nBest = some 0) (hmw : a.minWeight = none)
    (he : a.maxError = none ∨ a.maxError = some 0) (hd : a.maxDistance = none ∨ a.maxDistance = some 0) :
    filterMatches G argsort .plain s a = .ok s := by
  have hmask : ∀ {γ : Type} (l : List γ), l.length = p.1.length →
      mask (List.replicate p.1.length true) l = .ok l := by
    intro γ l hl
    unfold mask
    rw [if_pos (by simp [hl])]
    congr 1
    have e : ∀ (l : List γ), (((List.replicate l.length true).zip l).filter fun x => x.1).map (fun x => x.2) = l := by
      intro l
      induction l with
      | nil => rfl
      | cons x l ih => simp [List.replicate_succ, ih]
    rw [← hl]
    exact e l
  have h1 : byWeight argsort s a (List.replicate p.1.length true) = .ok (List.replicate p.1.length true) := by
    unfold byWeight
    cases s.weights <;> simp [hb, hmw, truthyN, truthyE, Option.filter, selectBest, selectWeight]
  have h2 : ∀ sel, byError G .plain s a sel = .ok sel := by
    intro sel
    unfold byError
    rcases he with he | he <;> simp [he, truthyE, Option.filter]
  have h3 : ∀ sel, byDistance G .plain s a sel = .ok sel := by
    intro sel
    unfold byDistance
    rcases hd with hd | hd <;> simp [hd, truthyE, Option.filter]
  obtain ⟨uvs, xys, ws⟩ := s
  simp only at hu
  subst hu
  unfold filterMatches
  simp only [bind, Except.bind, sizeOf, true_or, if_true, h1, h2, h3, applyPoints, maskPair, hmask p.1 rfl,
    hmask p.2 hlen, applyWeights]
  cases ws with
  | none => rfl
  | some ws => simp only [hmask ws (hw ws rfl)]

/-! ### Examples -/

/-- Points on a line; the second camera sees each point at twice its coordinate. -/
def demoGeo : Geo ℚ ℚ where
  check _ := .ok ()
  proj _ c x := if c then 2 * x else x / 2
  scale _ x := x
  width _ := 10
  dist x y := |x - y|

/-- An argsort (by insertion). -/
def demoSort (l : List ℚ) : List Nat :=
  (List.range l.length).insertionSort fun i j => l.getD j 0 ≤ l.getD i 0

example : Argsort demoSort := by
  intro l
  refine ⟨List.perm_insertionSort _ _, ?_⟩
  haveI : IsTotal Nat fun i j => l.getD j 0 ≤ l.getD i 0 := ⟨fun a b => le_total _ _⟩
  haveI : IsTrans Nat fun i j => l.getD j 0 ≤ l.getD i 0 := ⟨fun a b c h1 h2 => le_trans h2 h1⟩
  refine (List.pairwise_insertionSort (fun i j => l.getD j 0 ≤ l.getD i 0) (List.range l.length)).imp ?_
  intro i j h x y hx hy
  simp only [List.getD_eq_getElem?_getD, hx, hy, Option.getD_some] at h
  exact h

def demoMatches : Arrays ℚ ℚ := ⟨some ([1, 2, 3, 4], [2, 4, 7, 8]), none, some [5, 6, 9, 1]⟩

example : filterMatches demoGeo demoSort .plain demoMatches ⟨some 3, some 2, false, some (1/4), none, false⟩ =
    .ok ⟨some ([1, 2], [2, 4]), none, some [5, 6]⟩ := by decide +kernel
/-- Rotation matches: after the filter, a second one raises IndexError. -/
def demoRotation : Arrays ℚ ℚ := ⟨some ([1, 2, 3, 4], [2, 4, 7, 8]), some ([1, 2, 3, 4], [2, 4, 7, 8]), none⟩
example : filterMatches demoGeo demoSort .rot demoRotation ⟨none, none, false, some (1/4), none, false⟩ =
    .ok ⟨some ([1, 2, 4], [2, 4, 8]), some ([1, 2, 3, 4], [2, 4, 7, 8]), none⟩ := by decide +kernel
example : filterMatches demoGeo demoSort .rot ⟨some ([1, 2, 4], [2, 4, 8]), some ([1, 2, 3, 4], [2, 4, 7, 8]), none⟩
    ⟨none, none, false, some (1/4), none, false⟩ = .error .indexError := by decide +kernel

end Glimpse.Matches
