import Verif.Model.RasterInterp
import Verif.Props.RasterWindow

/-!
C29: interpolation of a raster time series. C58: target cell size.
-/
set_option autoImplicit false
set_option linter.unusedSimpArgs false

namespace Glimpse

/-- Specification of `abs(x - xi).argsort()`: a permutation of the indices in order of distance. -/
structure IsDistanceOrder (x : List ℚ) (xi : ℚ) (order : List Nat) : Prop where
  perm : order.Perm (List.range x.length)
  sorted : order.Pairwise fun i j => |x.getD i 0 - xi| ≤ |x.getD j 0 - xi|

private theorem argminOn_spec (f : Nat → ℚ) {l : List Nat} {i : Nat} (h : argminOn f l = some i) :
    i ∈ l ∧ ∀ k ∈ l, f i ≤ f k := by
  cases l with
  | nil => cases h
  | cons a l =>
    simp only [argminOn, Option.some.injEq] at h
    subst h
    have key : ∀ (l : List Nat) (a : Nat), (l.foldl (fun b k => if f k < f b then k else b) a = a ∨
        l.foldl (fun b k => if f k < f b then k else b) a ∈ l) ∧
        f (l.foldl (fun b k => if f k < f b then k else b) a) ≤ f a ∧
        ∀ k ∈ l, f (l.foldl (fun b k => if f k < f b then k else b) a) ≤ f k := by
      intro l
      induction l with
      | nil => intro a; simp
      | cons b l ih =>
        intro a
        simp only [List.foldl_cons]
        by_cases hb : f b < f a
        · rw [if_pos hb]
          obtain ⟨h1, h2, h3⟩ := ih b
          refine ⟨Or.inr ?_, h2.trans hb.le, ?_⟩
          · rcases h1 with h1 | h1
            · rw [h1]; exact List.mem_cons_self
            · exact List.mem_cons_of_mem _ h1
          · intro k hk
            rcases List.mem_cons.mp hk with rfl | hk
            · exact h2
            · exact h3 k hk
        · rw [if_neg hb]
          obtain ⟨h1, h2, h3⟩ := ih a
          refine ⟨?_, h2, ?_⟩
          · rcases h1 with h1 | h1
            · exact Or.inl h1
            · exact Or.inr (List.mem_cons_of_mem _ h1)
          · intro k hk
            rcases List.mem_cons.mp hk with rfl | hk
            · exact h2.trans (not_lt.mp hb)
            · exact h3 k hk
    obtain ⟨h1, h2, h3⟩ := key l a
    refine ⟨?_, ?_⟩
    · rcases h1 with h1 | h1
      · rw [h1]; exact List.mem_cons_self
      · exact List.mem_cons_of_mem _ h1
    · intro k hk
      rcases List.mem_cons.mp hk with rfl | hk
      · exact h2
      · exact h3 k hk

private theorem argminOn_none (f : Nat → ℚ) {l : List Nat} : argminOn f l = none ↔ l = [] := by
  cases l <;> simp [argminOn]

private theorem mem_whereIdx {x : List ℚ} {p : ℚ → Bool} {i : Nat} :
    i ∈ whereIdx x p ↔ i < x.length ∧ p (x.getD i 0) = true := by
  simp [whereIdx]

/-- C29: without extrapolation, `nearest` returns exactly when there is a position at or before xi and one at or after
it; the pair returned is the nearest position at or before xi and the nearest at or after it. -/
theorem nearest_spec (x : List ℚ) (xi : ℚ) (order : List Nat) :
    (Returns (nearestPair x xi false order) ↔ (∃ v ∈ x, v ≤ xi) ∧ ∃ v ∈ x, xi ≤ v) ∧
    ∀ i j, nearestPair x xi false order = .ok (i, j) → i < x.length ∧ j < x.length ∧
      x.getD i 0 ≤ xi ∧ xi ≤ x.getD j 0 ∧ (∀ v ∈ x, v ≤ xi → v ≤ x.getD i 0) ∧ (∀ v ∈ x, xi ≤ v → x.getD j 0 ≤ v) := by
  have hget : ∀ v ∈ x, ∃ k, k < x.length ∧ x.getD k 0 = v := by
    intro v hv
    obtain ⟨k, hk⟩ := List.getElem?_of_mem hv
    obtain ⟨hlt, -⟩ := List.getElem?_eq_some_iff.mp hk
    exact ⟨k, hlt, by rw [List.getD_eq_getElem?_getD, hk]; rfl⟩
  have hmem : ∀ k, k < x.length → x.getD k 0 ∈ x := by
    intro k hk
    rw [List.getD_eq_getElem?_getD, List.getElem?_eq_getElem hk]
    exact List.getElem_mem hk
  have fail : ∀ e, nearestPair x xi false order = .error e → ¬ ((∃ v ∈ x, v ≤ xi) ∧ ∃ v ∈ x, xi ≤ v) →
      (Returns (nearestPair x xi false order) ↔ (∃ v ∈ x, v ≤ xi) ∧ ∃ v ∈ x, xi ≤ v) ∧
      ∀ i j, nearestPair x xi false order = .ok (i, j) → i < x.length ∧ j < x.length ∧
        x.getD i 0 ≤ xi ∧ xi ≤ x.getD j 0 ∧ (∀ v ∈ x, v ≤ xi → v ≤ x.getD i 0) ∧ (∀ v ∈ x, xi ≤ v → x.getD j 0 ≤ v) := by
    intro e he hno
    rw [he]
    exact ⟨⟨fun ⟨_, h⟩ => (by cases h), fun h => absurd h hno⟩, fun i j h => by cases h⟩
  by_cases hx : x = []
  · refine fail .indexError (by unfold nearestPair; rw [if_pos hx]) ?_
    rw [hx]
    rintro ⟨⟨v, hv, -⟩, -⟩; cases hv
  · cases hb : argminOn (fun k => |x.getD k 0 - xi|) (whereIdx x fun v => decide (v - xi ≤ 0)) with
    | none =>
      have hb' := (argminOn_none _).mp hb
      refine fail .valueError ?_ ?_
      · unfold nearestPair bracketPair
        simp only [hx, if_false, Bool.false_eq_true, hb]
      · rintro ⟨⟨v, hv, hle⟩, -⟩
        obtain ⟨k, hk, rfl⟩ := hget v hv
        have : k ∈ whereIdx x fun v => decide (v - xi ≤ 0) := mem_whereIdx.mpr ⟨hk, by simpa using hle⟩
        rw [hb'] at this; cases this
    | some i0 =>
      cases ha : argminOn (fun k => x.getD k 0 - xi) (whereIdx x fun v => decide (v - xi ≥ 0)) with
      | none =>
        have ha' := (argminOn_none _).mp ha
        refine fail .valueError ?_ ?_
        · unfold nearestPair bracketPair
          simp only [hx, if_false, Bool.false_eq_true, hb, ha]
        · rintro ⟨-, ⟨v, hv, hle⟩⟩
          obtain ⟨k, hk, rfl⟩ := hget v hv
          have : k ∈ whereIdx x fun v => decide (v - xi ≥ 0) := mem_whereIdx.mpr ⟨hk, by simpa using hle⟩
          rw [ha'] at this; cases this
      | some j0 =>
        obtain ⟨b1, b2⟩ := argminOn_spec _ hb
        obtain ⟨a1, a2⟩ := argminOn_spec _ ha
        obtain ⟨b1l, b1v⟩ := mem_whereIdx.mp b1
        obtain ⟨a1l, a1v⟩ := mem_whereIdx.mp a1
        simp only [decide_eq_true_eq] at b1v a1v
        have hnlt : ¬ x.getD j0 0 < x.getD i0 0 := by intro h; linarith
        have hval : nearestPair x xi false order = .ok (i0, j0) := by
          unfold nearestPair bracketPair
          simp only [hx, if_false, Bool.false_eq_true, hb, ha]
          rw [if_neg hnlt]
        rw [hval]
        refine ⟨⟨fun _ => ⟨⟨_, hmem _ b1l, by linarith⟩, ⟨_, hmem _ a1l, by linarith⟩⟩, fun _ => ⟨_, rfl⟩⟩, fun i j h => ?_⟩
        cases h
        refine ⟨b1l, a1l, by linarith, by linarith, fun v hv hle => ?_, fun v hv hle => ?_⟩
        · obtain ⟨k, hk, rfl⟩ := hget v hv
          have := b2 k (mem_whereIdx.mpr ⟨hk, by simpa using hle⟩)
          rw [abs_of_nonpos b1v, abs_of_nonpos (by linarith)] at this
          linarith
        · obtain ⟨k, hk, rfl⟩ := hget v hv
          have := a2 k (mem_whereIdx.mpr ⟨hk, by simpa using hle⟩)
          linarith

/-- C29: with extrapolation, `nearest` returns exactly when there are two rasters or more; the pair returned is ordered by
position, its members differ, and no other raster is nearer to xi than either of them. -/
theorem nearest_extrapolate_spec (x : List ℚ) (xi : ℚ) (order : List Nat) (ho : IsDistanceOrder x xi order) :
    (Returns (nearestPair x xi true order) ↔ 2 ≤ x.length) ∧
    ∀ i j, nearestPair x xi true order = .ok (i, j) → i < x.length ∧ j < x.length ∧ i ≠ j ∧
      x.getD i 0 ≤ x.getD j 0 ∧
      ∀ k, k < x.length → k ≠ i → k ≠ j → |x.getD i 0 - xi| ≤ |x.getD k 0 - xi| ∧ |x.getD j 0 - xi| ≤ |x.getD k 0 - xi| := by
  have hlen : order.length = x.length := by rw [ho.perm.length_eq, List.length_range]
  match hord : order with
  | [] =>
    have : x = [] := by rw [← List.length_eq_zero_iff, ← hlen]; rfl
    subst this
    refine ⟨⟨fun ⟨a, ha⟩ => (by cases ha), fun h => (by simp at h)⟩, fun i j h => by cases h⟩
  | [a] =>
    have hx : x ≠ [] := by intro h; rw [h] at hlen; simp at hlen
    have e : nearestPair x xi true [a] = .error .valueError := by
      unfold nearestPair; rw [if_neg hx]; rfl
    rw [e]
    refine ⟨⟨fun ⟨a, ha⟩ => (by cases ha), fun h => ?_⟩, fun i j h => by cases h⟩
    rw [← hlen] at h; simp at h
  | a :: b :: l =>
    have hx : x ≠ [] := by intro h; rw [h] at hlen; simp at hlen
    have hnd : (a :: b :: l).Nodup := ho.perm.nodup_iff.mpr List.nodup_range
    have hab : a ≠ b := by
      intro h; subst h; simp at hnd
    have hm : ∀ k, k ∈ a :: b :: l ↔ k < x.length := fun k => by rw [ho.perm.mem_iff, List.mem_range]
    have ha := (hm a).mp List.mem_cons_self
    have hb := (hm b).mp (List.mem_cons_of_mem _ List.mem_cons_self)
    have hs := ho.sorted
    rw [List.pairwise_cons, List.pairwise_cons] at hs
    have far : ∀ k, k < x.length → k ≠ a → k ≠ b → |x.getD a 0 - xi| ≤ |x.getD k 0 - xi| ∧ |x.getD b 0 - xi| ≤ |x.getD k 0 - xi| := by
      intro k hk h1 h2
      have hmk := (hm k).mpr hk
      simp only [List.mem_cons, h1, h2, false_or] at hmk
      exact ⟨hs.1 k (List.mem_cons_of_mem _ hmk), hs.2.1 k hmk⟩
    have e : nearestPair x xi true (a :: b :: l) = .ok (if x.getD b 0 < x.getD a 0 then (b, a) else (a, b)) := by
      unfold nearestPair; rw [if_neg hx]; rfl
    rw [e]
    refine ⟨⟨fun _ => by rw [← hlen]; simp, fun _ => ⟨_, rfl⟩⟩, fun i j h => ?_⟩
    by_cases hlt : x.getD b 0 < x.getD a 0
    · rw [if_pos hlt] at h
      cases h
      exact ⟨hb, ha, hab.symm, hlt.le, fun k hk h1 h2 => ⟨(far k hk h2 h1).2, (far k hk h2 h1).1⟩⟩
    · rw [if_neg hlt] at h
      cases h
      exact ⟨ha, hb, hab, not_lt.mp hlt, far⟩

private theorem zipCells_cell (f : ℚ → ℚ → Option ℚ) (a b : FArray) (i j : Nat) (u v : Option ℚ)
    (hu : cellAt a i j = some u) (hv : cellAt b i j = some v) :
    cellAt (zipCells f a b) i j = some (zipCell f u v) := by
  unfold cellAt zipCells at *
  cases ha : a[i]? with
  | none => rw [ha] at hu; cases hu
  | some r =>
    cases hb : b[i]? with
    | none => rw [hb] at hv; cases hv
    | some s =>
      rw [ha] at hu; rw [hb] at hv
      simp only [Option.bind_some] at hu hv
      rw [List.getElem?_zipWith, ha, hb]
      simp only [Option.bind_some]
      rw [List.getElem?_zipWith, hu, hv]

/-- C29: between rasters at different positions, each cell is the affine function of position through the two values; in
particular it is the first value at the first position, the second at the second, and between them in between. -/
theorem interpolate_affine (dt : Bool) (m0 m1 : FArray) (x0 x1 xi : ℚ) (hx : x0 < x1) :
    ∃ z, interpolateMeans dt m0 m1 x0 x1 xi = .ok z ∧
      ∀ i j p q, cellAt m0 i j = some (some p) → cellAt m1 i j = some (some q) →
        ∃ v, cellAt z i j = some (some v) ∧ (v - p) * (x1 - x0) = (q - p) * (xi - x0) ∧
          (xi = x0 → v = p) ∧ (xi = x1 → v = q) ∧ (x0 ≤ xi → xi ≤ x1 → Between p q v) := by
  have hne : x1 - x0 ≠ 0 := by intro h; linarith
  have hpos : 0 < x1 - x0 := by linarith
  refine ⟨_, by unfold interpolateMeans; simp only; rw [if_neg hne], fun i j p q hp hq => ?_⟩
  refine ⟨_, zipCells_cell _ _ _ _ _ _ _ hp hq, ?_, ?_, ?_, ?_⟩
  · field_simp
    ring
  · rintro rfl; simp
  · rintro rfl; rw [div_self hne]; ring
  · intro h0 h1
    have s0 : 0 ≤ (xi - x0) / (x1 - x0) := div_nonneg (by linarith) hpos.le
    have s1 : (xi - x0) / (x1 - x0) ≤ 1 := by rw [div_le_one hpos]; linarith
    rcases le_total p q with h | h
    · left; constructor <;> nlinarith
    · right; constructor <;> nlinarith

/-- A cell missing in either raster is missing in the result. -/
theorem interpolate_missing (dt : Bool) (m0 m1 : FArray) (x0 x1 xi : ℚ) (z : FArray)
    (h : interpolateMeans dt m0 m1 x0 x1 xi = .ok z) (i j : Nat) (u v : Option ℚ)
    (hu : cellAt m0 i j = some u) (hv : cellAt m1 i j = some v) (hm : u = none ∨ v = none) :
    cellAt z i j = some none := by
  unfold interpolateMeans at h
  simp only at h
  split at h
  · split at h
    · cases h
    · cases h
      rw [zipCells_cell _ _ _ _ _ _ _ hu hv]
      cases u <;> cases v <;> rfl
  · cases h
    rw [zipCells_cell _ _ _ _ _ _ _ hu hv]
    rcases hm with rfl | rfl
    · rfl
    · cases u <;> rfl

/-- C29: the whole call, strictly between two neighbouring positions: the result is the interpolation between the nearest
raster before and the nearest after. -/
theorem interpolant_between (dt : Bool) (x : List ℚ) (means : List FArray) (xi : ℚ) (order : List Nat)
    (hlo : ∃ v ∈ x, v ≤ xi) (hhi : ∃ v ∈ x, xi ≤ v) (hnot : xi ∉ x) :
    ∃ i j z, i < x.length ∧ j < x.length ∧ x.getD i 0 < xi ∧ xi < x.getD j 0 ∧
      (∀ v ∈ x, v ≤ x.getD i 0 ∨ x.getD j 0 ≤ v) ∧
      interpolantCall dt x means xi false order = .ok z ∧
      ∀ r c p q, cellAt (means.getD i []) r c = some (some p) → cellAt (means.getD j []) r c = some (some q) →
        ∃ v, cellAt z r c = some (some v) ∧
          (v - p) * (x.getD j 0 - x.getD i 0) = (q - p) * (xi - x.getD i 0) ∧ Between p q v := by
  obtain ⟨⟨i, j⟩, hp⟩ := (nearest_spec x xi order).1.mpr ⟨hlo, hhi⟩
  obtain ⟨h1, h2, h3, h4, h5, h6⟩ := (nearest_spec x xi order).2 i j hp
  have hmem : ∀ k, k < x.length → x.getD k 0 ∈ x := by
    intro k hk
    rw [List.getD_eq_getElem?_getD, List.getElem?_eq_getElem hk]
    exact List.getElem_mem hk
  have h3' : x.getD i 0 < xi := lt_of_le_of_ne h3 (fun h => hnot (h ▸ hmem i h1))
  have h4' : xi < x.getD j 0 := lt_of_le_of_ne h4 (fun h => hnot (h ▸ hmem j h2))
  obtain ⟨z, hz, hcell⟩ := interpolate_affine dt (means.getD i []) (means.getD j []) _ _ xi (h3'.trans h4')
  refine ⟨i, j, z, h1, h2, h3', h4', fun v hv => ?_, ?_, fun r c p q hpp hqq => ?_⟩
  · rcases le_total v xi with h | h
    · exact Or.inl (h5 v hv h)
    · exact Or.inr (h6 v hv h)
  · unfold interpolantCall
    rw [hp]
    exact hz
  · obtain ⟨v, e1, e2, -, -, e5⟩ := hcell r c p q hpp hqq
    exact ⟨v, e1, e2, e5 h3'.le h4'.le⟩

/-- Interpolating a quarter of the way. -/
example : interpolantCall false [0, 4, 10] [[[some 1]], [[some 3]], [[some 7]]] 1 false [] = .ok [[some (3 / 2)]] := by
  decide +kernel

/-- C29: with `extrapolate=True`, at a stored position (all positions distinct) the result is the stored raster, except
that cells missing in the other raster used are missing. -/
theorem interpolant_stored_extrapolate (dt : Bool) (x : List ℚ) (means : List FArray) (order : List Nat) (hd : x.Nodup)
    (hn : 2 ≤ x.length) (k : Nat) (hk : k < x.length) (ho : IsDistanceOrder x (x.getD k 0) order) :
    ∃ z l, l < x.length ∧ l ≠ k ∧ interpolantCall dt x means (x.getD k 0) true order = .ok z ∧
      ∀ r c p q, cellAt (means.getD k []) r c = some (some p) → cellAt (means.getD l []) r c = some (some q) →
        cellAt z r c = some (some p) := by
  obtain ⟨⟨i, j⟩, hp⟩ := (nearest_extrapolate_spec x _ order ho).1.mpr hn
  obtain ⟨h1, h2, h3, h4, h5⟩ := (nearest_extrapolate_spec x _ order ho).2 i j hp
  have inj : ∀ a b, a < x.length → b < x.length → x.getD a 0 = x.getD b 0 → a = b := by
    intro a b ha hb hab
    rw [List.getD_eq_getElem?_getD, List.getD_eq_getElem?_getD, List.getElem?_eq_getElem ha, List.getElem?_eq_getElem hb] at hab
    exact (List.Nodup.getElem_inj_iff hd).mp (by simpa using hab)
  have hlt : x.getD i 0 < x.getD j 0 := lt_of_le_of_ne h4 (fun h => h3 (inj i j h1 h2 h))
  obtain ⟨z, hz, hcell⟩ := interpolate_affine dt (means.getD i []) (means.getD j []) _ _ (x.getD k 0) hlt
  have hcall : interpolantCall dt x means (x.getD k 0) true order = .ok z := by
    unfold interpolantCall; rw [hp]; exact hz
  by_cases hik : k = i
  · subst hik
    refine ⟨z, j, h2, h3.symm, hcall, fun r c p q hpp hqq => ?_⟩
    obtain ⟨v, e1, -, e3, -, -⟩ := hcell r c p q hpp hqq
    rw [e1, e3 rfl]
  · by_cases hjk : k = j
    · subst hjk
      refine ⟨z, i, h1, h3, hcall, fun r c p q hpp hqq => ?_⟩
      obtain ⟨v, e1, -, -, e4, -⟩ := hcell r c q p hqq hpp
      rw [e1, e4 rfl]
    · exfalso
      have := (h5 k hk hik hjk).1
      rw [sub_self, abs_zero] at this
      have h0 : |x.getD i 0 - x.getD k 0| = 0 := le_antisymm this (abs_nonneg _)
      have : x.getD i 0 = x.getD k 0 := by linarith [abs_eq_zero.mp h0]
      exact hik (inj i k h1 hk this).symm

/-- The hypothesis on the order is met by the order of the distances. -/
example : IsDistanceOrder [0, 4, 10] 4 [1, 0, 2] := by
  refine ⟨by decide, by decide +kernel⟩

/-- C29 fails: with the default `extrapolate=False`, at every stored position the call raises for
datetimes, and for numbers no cell of the result is finite. -/
theorem interpolant_stored_violated (x : List ℚ) (means : List FArray) (order : List Nat) (k : Nat) (hk : k < x.length) :
    interpolantCall true x means (x.getD k 0) false order = .error .zeroDivision ∧
    ∃ z, interpolantCall false x means (x.getD k 0) false order = .ok z ∧ ∀ r c, ¬ HasData z r c := by
  have hmem : ∀ k, k < x.length → x.getD k 0 ∈ x := by
    intro k hk
    rw [List.getD_eq_getElem?_getD, List.getElem?_eq_getElem hk]
    exact List.getElem_mem hk
  obtain ⟨⟨i, j⟩, hp⟩ := (nearest_spec x (x.getD k 0) order).1.mpr ⟨⟨_, hmem k hk, le_refl _⟩, ⟨_, hmem k hk, le_refl _⟩⟩
  obtain ⟨h1, h2, h3, h4, h5, h6⟩ := (nearest_spec x _ order).2 i j hp
  have ei := le_antisymm h3 (h5 _ (hmem k hk) (le_refl _))
  have ej := le_antisymm (h6 _ (hmem k hk) (le_refl _)) h4
  have hz : x.getD j 0 - x.getD i 0 = 0 := by rw [ei, ej]; ring
  constructor
  · unfold interpolantCall
    rw [hp]
    simp only [bind, Except.bind, interpolateMeans, hz, if_true]
  · refine ⟨zipCells (fun _ _ => none) (means.getD i []) (means.getD j []), ?_, ?_⟩
    · unfold interpolantCall
      rw [hp]
      simp only [bind, Except.bind, interpolateMeans, hz, if_true, Bool.false_eq_true, if_false]
    · rintro r c ⟨v, hv⟩
      unfold cellAt zipCells at hv
      rw [List.getElem?_zipWith] at hv
      cases ha : (means.getD i [])[r]? with
      | none => rw [ha] at hv; simp at hv
      | some ra =>
        cases hb : (means.getD j [])[r]? with
        | none => rw [ha, hb] at hv; simp at hv
        | some rb =>
          rw [ha, hb] at hv
          simp only [Option.bind_some] at hv
          rw [List.getElem?_zipWith] at hv
          cases hc : ra[c]? with
          | none => rw [hc] at hv; simp at hv
          | some u =>
            cases hd' : rb[c]? with
            | none => rw [hc, hd'] at hv; simp at hv
            | some w =>
              rw [hc, hd'] at hv
              cases u <;> cases w <;> simp [zipCell] at hv

/-- Sigma of the result is at least that of the first raster, and never smaller than the propagated bound. -/
theorem sigma_ge (z0 z1 s0 s1 x0 x1 xi : ℚ) : s0 ^ 2 ≤ sigmaSq z0 z1 s0 s1 x0 x1 xi := by
  unfold sigmaSq
  simp only
  have h1 : 0 ≤ ((xi - x0) / (x1 - x0)) ^ 2 * (s0 ^ 2 + s1 ^ 2) := by positivity
  have h2 : 0 ≤ ((1 / 3) * (z1 - z0) * (min |xi - x0| |xi - x1| / (x1 - x0))) ^ 2 := by positivity
  linarith

/-- ... and exactly that of the first raster at its own position. -/
theorem sigma_first (z0 z1 s0 s1 x0 x1 : ℚ) : sigmaSq z0 z1 s0 s1 x0 x1 x0 = s0 ^ 2 := by
  unfold sigmaSq
  have : min (0 : ℚ) |x0 - x1| = 0 := min_eq_left (abs_nonneg _)
  simp [this]

/-- C58 fails: asking for cells k times coarser than those of a raster in memory (square cells) gives cells k times
finer. -/
theorem target_cell_size_violated (g : Grid) (hg : g.Valid) (hsq : |g.ax.d| = |g.ay.d|) (k : Nat) (hk : 2 ≤ k) :
    parsedCellSize g (k * |g.ax.d|) = |g.ax.d| / k ∧ parsedCellSize g (k * |g.ax.d|) ≠ k * |g.ax.d| := by
  have hd : 0 < |g.ax.d| := abs_pos.mpr (GAxis.d_ne hg.nx hg.x)
  have hk0 : (2 : ℚ) ≤ k := by exact_mod_cast hk
  have hmean : (|g.ax.d| + |g.ay.d|) / 2 = |g.ax.d| := by rw [← hsq]; ring
  have hne : ¬ ((k : ℚ) * |g.ax.d| = |g.ax.d|) := by
    intro h
    have : ((k : ℚ) - 1) * |g.ax.d| = 0 := by linarith
    rcases mul_eq_zero.mp this with h | h <;> linarith
  have hz : zoomSize g.ax.n ((k : ℚ) * |g.ax.d| / |g.ax.d|) = ((g.ax.n * k : Nat) : ℤ) := by
    unfold zoomSize
    rw [mul_div_assoc, div_self hd.ne', mul_one]
    have hq : (g.ax.n : ℚ) * k = (((g.ax.n * k : Nat) : ℤ) : ℚ) := by push_cast; ring
    rw [hq]
    unfold roundHalfEven
    simp only [Int.floor_intCast, sub_self]
    rw [if_pos (by norm_num)]
  have hn0 : (g.ax.n : ℚ) ≠ 0 := by exact_mod_cast hg.nx.ne'
  have habs : |g.ax.hi - g.ax.lo| = g.ax.n * |g.ax.d| := by
    rw [← GAxis.n_mul_d hg.nx, abs_mul, Nat.abs_cast]
  have e : parsedCellSize g (k * |g.ax.d|) = |g.ax.d| / k := by
    unfold parsedCellSize
    simp only
    rw [hmean, if_neg hne, hz, habs]
    have : (k : ℚ) ≠ 0 := by linarith
    push_cast
    field_simp
  refine ⟨e, ?_⟩
  rw [e]
  intro h
  have h2 : |g.ax.d| = k * |g.ax.d| * k := by
    rw [div_eq_iff (by linarith)] at h; exact h
  nlinarith [mul_pos (show (0:ℚ) < k - 1 by linarith) hd]

/-- C58 (partial): without a change of cell size the raster keeps its cells. -/
theorem target_cell_size_same_partial (g : Grid) (hsq : |g.ax.d| = |g.ay.d|) : parsedCellSize g |g.ax.d| = |g.ax.d| := by
  unfold parsedCellSize
  simp only
  rw [← hsq, if_pos (by ring)]

example : (⟨⟨0, 6, 3⟩, ⟨4, 0, 2⟩⟩ : Grid).Valid := ⟨by decide, by decide, by decide, by decide⟩

end Glimpse
