import Verif.Model.CameraText
import Verif.Props.CameraJson
import Verif.Props.JsonDump

/-!
C90, continued: cameras written to the text of a JSON file and read again.
-/
set_option autoImplicit false
set_option linter.unusedSimpArgs false
set_option linter.unusedSectionVars false

namespace Glimpse.CamJson
open Glimpse.Json

variable {N : Type}

/-- `x` has a number of the same value. -/
def Exact (val : N → ℚ) (num : ℚ → N) (x : ℚ) : Prop := val (num x) = x

/-- All numbers of the dictionary have. -/
def AllExact (val : N → ℚ) (num : ℚ → N) (d : List (String × JVal)) : Prop :=
  ∀ k l, (k, JVal.nums l) ∈ d → ∀ x, some x ∈ l → Exact val num x

theorem numsOf_itemsOf (val : N → ℚ) (num : ℚ → N) (l : List Num) (h : ∀ x, some x ∈ l → Exact val num x) :
    numsOf val (itemsOf num l) = some l := by
  induction l with
  | nil => rfl
  | cons x l ih =>
    have := ih fun y hy => h y (List.mem_cons_of_mem _ hy)
    cases x with
    | none => simp only [itemsOf, numsOf, this, Option.map_some]
    | some x =>
      have hx : val (num x) = x := h x List.mem_cons_self
      simp only [itemsOf, numsOf, this, Option.map_some, hx]

theorem entriesOf_membersOf (val : N → ℚ) (num : ℚ → N) (d : List (String × JVal)) (h : AllExact val num d) :
    entriesOf val (membersOf num d) = some d := by
  induction d with
  | nil => rfl
  | cons e d ih =>
    obtain ⟨k, v⟩ := e
    have h1 := ih fun k' l hl => h k' l (List.mem_cons_of_mem _ hl)
    have h2 : valOf val (jsonOf num v) = some v := by
      cases v with
      | null => rfl
      | bool => rfl
      | dict => rfl
      | nums l => simp only [jsonOf, valOf, numsOf_itemsOf val num l (h k l List.mem_cons_self), Option.map_some]
    simp only [membersOf, entriesOf, h1, h2, Option.bind_eq_bind, Option.bind_some, String.ofList_toList]

theorem keys_membersOf (num : ℚ → N) (d : List (String × JVal)) : (membersOf num d).keys = d.map fun e => e.1.toList := by
  induction d with
  | nil => rfl
  | cons e d ih => obtain ⟨k, v⟩ := e; simp only [membersOf, Members.keys, ih, List.map_cons]

theorem itemsOf_distinct (num : ℚ → N) (l : List Num) : DistinctItems (itemsOf num l) := by
  induction l with
  | nil => simp [itemsOf, DistinctItems]
  | cons x l ih => cases x <;> simp only [itemsOf, DistinctItems, Distinct, ih, and_self]

theorem itemsOf_plain (num : ℚ → N) (l : List Num) : PlainItems (itemsOf num l) := by
  induction l with
  | nil => simp [itemsOf, PlainItems]
  | cons x l ih => cases x <;> simp only [itemsOf, PlainItems, Plain, ih, and_self]

theorem membersOf_distinct (num : ℚ → N) (d : List (String × JVal)) : DistinctMembers (membersOf num d) := by
  induction d with
  | nil => simp [membersOf, DistinctMembers]
  | cons e d ih =>
    obtain ⟨k, v⟩ := e
    refine ⟨?_, ih⟩
    cases v with
    | null => simp [jsonOf, Distinct]
    | bool => simp [jsonOf, Distinct]
    | dict => simp [jsonOf, Distinct, Members.keys, DistinctMembers]
    | nums l => exact itemsOf_distinct num l

theorem membersOf_plain (num : ℚ → N) (d : List (String × JVal)) (h : ∀ e ∈ d, PlainText e.1.toList) : PlainMembers (membersOf num d) := by
  induction d with
  | nil => simp [membersOf, PlainMembers]
  | cons e d ih =>
    have h1 := h e List.mem_cons_self
    obtain ⟨k, v⟩ := e
    refine ⟨h1, ?_, ih fun e he => h e (List.mem_cons_of_mem _ he)⟩
    cases v with
    | null => simp [jsonOf, Plain]
    | bool => simp [jsonOf, Plain]
    | dict => simp [jsonOf, Plain, PlainMembers]
    | nums l => exact itemsOf_plain num l

/-- The text of a dictionary, with or without flat arrays, is read as the dictionary. -/
theorem text_entries (F : NumFmt N) (hF : F.Faithful) (val : N → ℚ) (num : ℚ → N) (d : List (String × JVal)) (h : AllExact val num d)
    (hd : (d.map Prod.fst).Nodup) (hk : ∀ e ∈ d, PlainText e.1.toList) (flat : Bool) (indent : Option Int) (hi : flat = true → indent ≠ none)
    (kw : List (String × KwVal)) :
    ∃ text, JsonText.writeJson (dumps F indent (.obj (membersOf num d))) flat indent = .ok text ∧
      fromText F val text kw = some (fromJson d kw) := by
  have hdist : Distinct (.obj (membersOf num d)) := by
    refine ⟨?_, membersOf_distinct num d⟩
    rw [keys_membersOf]
    have : (d.map fun e => e.1.toList) = (d.map Prod.fst).map String.toList := by rw [List.map_map]; rfl
    rw [this]
    exact hd.map fun a b h => String.toList_injective h
  have hread : ofJson val (.obj (membersOf num d)) = some d := entriesOf_membersOf val num d h
  cases flat with
  | false =>
    refine ⟨_, rfl, ?_⟩
    unfold fromText
    rw [json_round_trip F hF indent _ hdist]
    simp only [hread, Option.map_some]
  | true =>
    cases indent with
    | none => exact absurd rfl (hi rfl)
    | some i =>
      obtain ⟨out, h1, h2⟩ := flat_round_trip_partial F hF i _ hdist (membersOf_plain num d hk)
      refine ⟨out, h1, ?_⟩
      unfold fromText
      rw [h2]
      simp only [hread, Option.map_some]

/-- All numbers of the camera can be written exactly. -/
def CamExact (val : N → ℚ) (num : ℚ → N) (cam : Cam) : Prop :=
  ∀ l ∈ [cam.xyz, cam.viewdir, cam.imgsz, cam.f, cam.c, cam.k, cam.p] ++ cam.sensorsz.toList, ∀ x, some x ∈ l → Exact val num x

theorem toDict_mem (cam : Cam) (attributes : List String) (d : List (String × JVal)) (h : cam.toDict attributes = .ok d) :
    d.map Prod.fst = attributes ∧ ∀ e ∈ d, cam.attr e.1 = .ok e.2 := by
  induction attributes generalizing d with
  | nil => cases h; exact ⟨rfl, by intro e he; cases he⟩
  | cons a r ih =>
    unfold Cam.toDict at h
    rw [List.mapM_cons] at h
    simp only [bind, Except.bind] at h
    cases ha : cam.attr a with
    | error => simp [ha] at h
    | ok v =>
      simp only [ha] at h
      cases hr : cam.toDict r with
      | error =>
        unfold Cam.toDict at hr
        simp only [bind, Except.bind] at hr
        simp [hr] at h
      | ok d' =>
        have hr' := hr
        unfold Cam.toDict at hr
        simp only [bind, Except.bind] at hr
        simp only [hr, pure, Except.pure, Except.ok.injEq] at h
        subst h
        obtain ⟨h1, h2⟩ := ih d' hr'
        refine ⟨by rw [List.map_cons, h1], ?_⟩
        intro e he
        rcases List.mem_cons.mp he with rfl | he
        · exact ha
        · exact h2 e he

/-- C90. `cam.to_json(path, attributes, indent=.., flat_arrays=..)` followed by `Camera.from_json(path)` gives a camera with the same values of the
attributes (among the default ones and the sensor size, each once, with the image size and the focal length), and default values of the
others: through the text of the file, with any indent, flat arrays or not. -/
theorem text_roundtrip_partial (F : NumFmt N) (hF : F.Faithful) (val : N → ℚ) (num : ℚ → N) (cam : Cam) (h : Complete cam)
    (he : CamExact val num cam) (attributes : List String) (hnd : attributes.Nodup)
    (hsub : ∀ a ∈ attributes, a ∈ ["xyz", "viewdir", "imgsz", "f", "c", "k", "p", "sensorsz"])
    (hi : "imgsz" ∈ attributes) (hf : "f" ∈ attributes) (flat : Bool) (indent : Option Int) (hflat : flat = true → indent ≠ none) :
    ∃ text, cam.toText F num attributes flat indent = .ok text ∧ fromText F val text [] = some (.ok (onlyAttributes cam attributes)) := by
  obtain ⟨d, hd, hr⟩ := json_roundtrip_partial cam h attributes hsub hi hf
  obtain ⟨hk, ha⟩ := toDict_mem cam attributes d hd
  have hkey : ∀ e ∈ d, e.1 ∈ ["xyz", "viewdir", "imgsz", "f", "c", "k", "p", "sensorsz"] :=
    fun e hm => hsub _ (by rw [← hk]; exact List.mem_map_of_mem hm)
  have hex : AllExact val num d := by
    intro k l hm x hx
    have hv := ha _ hm
    have hn := hkey _ hm
    simp only [List.mem_cons, List.not_mem_nil, or_false] at hn
    simp only at hv
    rcases hn with rfl | rfl | rfl | rfl | rfl | rfl | rfl | rfl
    · cases hv; exact he _ (by simp) x hx
    · cases hv; exact he _ (by simp) x hx
    · have : (Except.ok (JVal.nums (cam.imgsz.map fun x => some (truncInt (x.getD 0) : ℚ))) : Except Err JVal) = .ok (.nums l) := hv
      rw [imgsz_attr cam h] at this
      cases this; exact he _ (by simp) x hx
    · cases hv; exact he _ (by simp) x hx
    · cases hv; exact he _ (by simp) x hx
    · cases hv; exact he _ (by simp) x hx
    · cases hv; exact he _ (by simp) x hx
    · have : (Except.ok ((cam.sensorsz.map JVal.nums).getD .null) : Except Err JVal) = .ok (.nums l) := hv
      cases hs : cam.sensorsz with
      | none => rw [hs] at this; cases this
      | some s =>
        rw [hs] at this
        cases this
        exact he _ (by simp [hs]) x hx
  have hplain : ∀ e ∈ d, PlainText e.1.toList := by
    intro e hm
    have hn := hkey _ hm
    simp only [List.mem_cons, List.not_mem_nil, or_false] at hn
    rcases hn with h | h | h | h | h | h | h | h <;> rw [h] <;> constructor <;> simp
  obtain ⟨text, h1, h2⟩ := text_entries F hF val num d hex (by rw [hk]; exact hnd) hplain flat indent hflat []
  refine ⟨text, ?_, by rw [h2, hr]⟩
  unfold Cam.toText
  simp only [hd, bind, Except.bind, h1]

/-- A camera of integers meets the hypotheses. -/
example : ∃ text, (⟨[some 1, some 2, some 3], [some 0, some (-4), some 0], [some 8, some 6], [some 10, some 10], [some 0, some 0],
      List.replicate 6 (some 0), List.replicate 2 (some 0), some [some 24, some 18], .off⟩ : Cam).toText intNumFmt (fun q => q.num)
      (defaultAttributes ++ ["sensorsz"]) true (some 4) = .ok text ∧
    fromText intNumFmt (fun z => (z : ℚ)) text [] = some (.ok ⟨[some 1, some 2, some 3], [some 0, some (-4), some 0], [some 8, some 6],
      [some 10, some 10], [some 0, some 0], List.replicate 6 (some 0), List.replicate 2 (some 0), some [some 24, some 18], .off⟩) := by
  obtain ⟨t, h1, h2⟩ := text_roundtrip_partial intNumFmt intNumFmt_faithful (fun z => (z : ℚ)) (fun q => q.num)
    ⟨[some 1, some 2, some 3], [some 0, some (-4), some 0], [some 8, some 6], [some 10, some 10], [some 0, some 0],
      List.replicate 6 (some 0), List.replicate 2 (some 0), some [some 24, some 18], .off⟩
    ⟨rfl, rfl, rfl, rfl, rfl, rfl, rfl, by decide, by decide, by
      intro x hx
      simp only [List.mem_cons, List.not_mem_nil, or_false] at hx
      rcases hx with rfl | rfl
      · exact ⟨8, by norm_num⟩
      · exact ⟨6, by norm_num⟩⟩
    (by
      intro l hl x hx
      simp only [List.cons_append, List.nil_append, Option.toList_some, List.mem_cons, List.not_mem_nil, or_false] at hl
      rcases hl with rfl | rfl | rfl | rfl | rfl | rfl | rfl | rfl <;> simp at hx <;> rcases hx with rfl | rfl | rfl <;> simp [Exact])
    (defaultAttributes ++ ["sensorsz"]) (by decide) (by decide) (by decide) (by decide) true (some 4) (by simp)
  exact ⟨t, h1, h2⟩

/-- A file that is not JSON raises ValueError, whatever else is given. -/
theorem from_text_invalid {N : Type} (F : NumFmt N) (val : N → ℚ) (text : List Char) (kw : List (String × KwVal)) (h : loads F text = none) :
    fromText F val text kw = some (.error .valueError) := by
  simp [fromText, h]

end Glimpse.CamJson
