import Verif.Model.TimeSeries
import Verif.Props.Downsample
import Verif.Props.RunningMedian
import Verif.Props.Dm
import Mathlib.Tactic.LinearCombination

/-! # Time series operations: properties C39, C40, C41 -/

namespace Verif.Props

open Verif.Model Verif.Spec

set_option linter.unusedSectionVars false

/-! ## Creation of objects -/

theorem foldl_setDefault (k : String) : ∀ (l : List String) (d : PyDict String MVal),
    dictGet (l.foldl setDefaultNone d) k =
      match dictGet d k with
      | some v => some v
      | none => if k ∈ l then some .none else none := by
  intro l
  induction l with
  | nil => intro d; simp; cases dictGet d k <;> rfl
  | cons a l ih =>
    intro d
    rw [List.foldl_cons, ih]
    unfold setDefaultNone
    cases ha : dictGet d a with
    | some v =>
      simp only
      cases hk : dictGet d k with
      | some v => rfl
      | none =>
        have : k ≠ a := by rintro rfl; rw [ha] at hk; cases hk
        simp [this]
    | none =>
      simp only [dictGet_set]
      by_cases h : a = k
      · subst h; simp [ha]
      · have : k ≠ a := fun e => h e.symm
        simp [h, this]

theorem tsNew_inv {w w' : World} {x : List ℝ} {tsamp : ℝ} {items : PyDict String MVal} {i : ℕ}
    (h : tsNew w x tsamp items = .ok (w', i)) :
    i = w.objs.length ∧ w'.arrays = w.arrays ++ [x] ∧ w'.objs = w.objs ++ [⟨w.arrays.length, tsamp, w.metas.length⟩] ∧
    ∃ md, w'.metas = w.metas ++ [md] ∧ dictGet md "tobs" = some (.num (x.length * tsamp)) ∧
      ∀ k, k ≠ "tobs" → k ∉ reservedKeys → dictGet md k = dictGet items k := by
  unfold tsNew at h
  simp only [World.newArray, tsInit] at h
  obtain ⟨md, h1, h2⟩ := bind_ok_inv h
  simp only [Except.ok.injEq, Prod.mk.injEq] at h2
  obtain ⟨rfl, rfl⟩ := h2
  refine ⟨rfl, rfl, rfl, _, rfl, ?_, ?_⟩
  · rw [dictGet_set]
    simp
  · intro k hk hr
    rw [dictGet_set, if_neg (fun e => hk e.symm)]
    have h3 : md = reservedKeys.foldl setDefaultNone items := by
      unfold metadataCopy at h1
      split at h1
      · split_ifs at h1
        cases h1; rfl
      · cases h1
      · cases h1; rfl
    rw [h3, foldl_setDefault]
    cases dictGet items k <;> simp [hr]

/-- The world `w'` has the arrays, metadata and objects of `w`, with the same contents, and possibly new ones. -/
def Extends (w w' : World) : Prop := w.arrays <+: w'.arrays ∧ w.metas <+: w'.metas ∧ w.objs <+: w'.objs

theorem Extends.trans {a b c : World} (h1 : Extends a b) (h2 : Extends b c) : Extends a c :=
  ⟨h1.1.trans h2.1, h1.2.1.trans h2.2.1, h1.2.2.trans h2.2.2⟩

theorem Extends.refl (w : World) : Extends w w := ⟨List.prefix_refl _, List.prefix_refl _, List.prefix_refl _⟩

theorem tsNew_extends {w w' : World} {x : List ℝ} {tsamp : ℝ} {items : PyDict String MVal} {i : ℕ}
    (h : tsNew w x tsamp items = .ok (w', i)) : Extends w w' := by
  obtain ⟨_, h1, h2, md, h3, _⟩ := tsNew_inv h
  exact ⟨by rw [h1]; exact List.prefix_append _ _, by rw [h3]; exact List.prefix_append _ _,
    by rw [h2]; exact List.prefix_append _ _⟩

theorem obj_ok_iff {w : World} {id : ℕ} {o : TsObj} : w.obj id = .ok o ↔ w.objs[id]? = some o := by
  unfold World.obj
  cases w.objs[id]? <;> simp

/-! ## Inversion of the operations -/

theorem normalise_new_inv {w w' : World} {id : ℕ} {r : Option ℕ} (h : tsNormalise w id false = .ok (w', r)) :
    ∃ o i, w.objs[id]? = some o ∧ r = some i ∧ tsNew w (normalised (w.dataOf o)) o.tsamp (w.metaOf o) = .ok (w', i) := by
  obtain ⟨o, h1, h2⟩ := bind_ok_inv h
  simp only [Bool.false_eq_true, if_false] at h2
  obtain ⟨⟨w2, i⟩, h3, h4⟩ := bind_ok_inv h2
  cases h4
  exact ⟨o, i, obj_ok_iff.mp h1, rfl, h3⟩

theorem deredden_new_inv {w w' : World} {id : ℕ} {width : ℝ} {minpts : ℕ} {r : Option ℕ}
    (h : tsDeredden w id width minpts false = .ok (w', r)) :
    ∃ o i rmed, w.objs[id]? = some o ∧ r = some i ∧ runningMedianOf (w.dataOf o) o.tsamp width minpts = .ok rmed ∧
      tsNew w (subtractArrays (w.dataOf o) rmed) o.tsamp (w.metaOf o) = .ok (w', i) := by
  obtain ⟨o, h1, h2⟩ := bind_ok_inv h
  obtain ⟨rmed, h3, h4⟩ := bind_ok_inv h2
  simp only [Bool.false_eq_true, if_false] at h4
  obtain ⟨⟨w2, i⟩, h5, h6⟩ := bind_ok_inv h4
  cases h6
  exact ⟨o, i, rmed, obj_ok_iff.mp h1, rfl, h3, h5⟩

theorem downsample_new_inv {w w' : World} {id : ℕ} {f : ℝ} {r : Option ℕ} (h : tsDownsample w id f false = .ok (w', r)) :
    ∃ o i x, w.objs[id]? = some o ∧ r = some i ∧ downsampleBinding (w.dataOf o) f = .ok x ∧
      tsNew w x (f * o.tsamp) (w.metaOf o) = .ok (w', i) := by
  obtain ⟨o, h1, h2⟩ := bind_ok_inv h
  obtain ⟨x, h3, h4⟩ := bind_ok_inv h2
  simp only [Bool.false_eq_true, if_false] at h4
  obtain ⟨⟨w2, i⟩, h5, h6⟩ := bind_ok_inv h4
  cases h6
  refine ⟨o, i, x, obj_ok_iff.mp h1, rfl, ?_, h5⟩
  revert h3
  cases downsampleBinding (w.dataOf o) f with
  | ok y => intro h; simpa [liftCall] using h
  | error e => cases e <;> (intro h; simp [liftCall] at h)

/-! ## C39 -/

/-- C39. `normalise()` leaves all existing arrays, metadata and objects as they were. -/
theorem C39_normalise_pure (w w' : World) (id : ℕ) (r : Option ℕ) (h : tsNormalise w id false = .ok (w', r)) :
    Extends w w' := by
  obtain ⟨o, i, _, _, h1⟩ := normalise_new_inv h
  exact tsNew_extends h1

/-- C39. `deredden()` leaves all existing arrays, metadata and objects as they were. -/
theorem C39_deredden_pure (w w' : World) (id : ℕ) (width : ℝ) (minpts : ℕ) (r : Option ℕ)
    (h : tsDeredden w id width minpts false = .ok (w', r)) : Extends w w' := by
  obtain ⟨o, i, rmed, _, _, _, h1⟩ := deredden_new_inv h
  exact tsNew_extends h1

/-- C39. `downsample()` leaves all existing arrays, metadata and objects as they were. -/
theorem C39_downsample_pure (w w' : World) (id : ℕ) (f : ℝ) (r : Option ℕ) (h : tsDownsample w id f false = .ok (w', r)) :
    Extends w w' := by
  obtain ⟨o, i, x, _, _, _, h1⟩ := downsample_new_inv h
  exact tsNew_extends h1

theorem prefix_set {α : Type*} {l l' : List α} {i : ℕ} (h : l <+: l') (hi : l.length ≤ i) (a : α) : l <+: l'.set i a := by
  obtain ⟨t, rfl⟩ := h
  rw [List.set_append_right _ _ hi]
  exact List.prefix_append _ _

/-- C39. `fold()` leaves all existing arrays, metadata and objects as they were, although it scales an array in place. -/
theorem C39_fold_pure (w w' : World) (id : ℕ) (period : ℝ) (bins : ℕ) (subints : Option ℤ) (out : NdArray)
    (h : tsFold w id period bins subints = .ok (w', out)) : Extends w w' := by
  obtain ⟨o, h1, h2⟩ := bind_ok_inv h
  obtain ⟨_, h3, h4⟩ := bind_ok_inv h2
  split_ifs at h4 with hts
  simp only at h4
  obtain ⟨⟨w1, r⟩, h5, h6⟩ := bind_ok_inv h4
  obtain ⟨tsdown, h7, h8⟩ := bind_ok_inv h6
  split_ifs at h8 with hm
  simp only at h8
  obtain ⟨out', h9, h10⟩ := bind_ok_inv h8
  cases h10
  obtain ⟨o', i, x, ho', rfl, _, h11⟩ := downsample_new_inv h5
  have hext := tsNew_extends h11
  obtain ⟨rfl, e1, e2, md, e3, _⟩ := tsNew_inv h11
  have : tsdown.data = w.arrays.length := by
    rw [obj_ok_iff, e2] at h7
    simp at h7
    rw [← h7]
  refine ⟨?_, hext.2.1, hext.2.2⟩
  exact prefix_set hext.1 (by omega) _

/-- C39. `ffa_search` leaves all existing arrays, metadata and objects as they were. -/
theorem C39_ffa_search_pure (idx : IdxRule) (w w' : World) (id id' : ℕ) (a : SearchArgs) (res : SearchResult)
    (h : ffaSearch idx w id a = .ok (w', id', res)) : Extends w w' := by
  obtain ⟨⟨w1, id1⟩, h1, h2⟩ := bind_ok_inv h
  obtain ⟨⟨w2, id2⟩, h3, h4⟩ := bind_ok_inv h2
  obtain ⟨o, h5, h6⟩ := bind_ok_inv h4
  obtain ⟨⟨per, fb, snr⟩, h7, h8⟩ := bind_ok_inv h6
  cases h8
  have e1 : Extends w w1 := by
    unfold searchDeredden at h1
    split_ifs at h1
    · obtain ⟨⟨w3, i⟩, h9, h10⟩ := bind_ok_inv h1
      cases h10
      exact C39_deredden_pure _ _ _ _ _ _ h9
    · cases h1; exact .refl _
  refine e1.trans ?_
  unfold searchNormalise at h3
  split_ifs at h3
  · cases h3; exact .refl _
  · obtain ⟨⟨w3, i⟩, h9, h10⟩ := bind_ok_inv h3
    cases h10
    exact C39_normalise_pure _ _ _ _ h9

/-- Two time series that share the array `x`. -/
noncomputable def sharedWorld (x : List ℝ) : World :=
  ⟨[x], [[("tobs", .num 3)], [("tobs", .num 3)]], [⟨0, 1, 0⟩, ⟨0, 1, 1⟩]⟩

theorem sharedWorld_meta : ∃ md, metadataCopy [("tobs", .num 3)] = .ok md := by
  simp [metadataCopy, dictGet]

/-- The hypotheses of the theorems are met by operations on a series that shares its array with another one. -/
example : (∃ w' r, tsNormalise (sharedWorld [1, 2, 4]) 0 false = .ok (w', r)) ∧
    (∃ w' r, tsDownsample (sharedWorld [1, 2, 4]) 0 (3 / 2) false = .ok (w', r)) ∧
    ∃ w' r, tsDeredden (sharedWorld [5, 5, 5]) 0 1 1 false = .ok (w', r) := by
  obtain ⟨md, hmd⟩ := sharedWorld_meta
  obtain ⟨out, hout, _⟩ := (C14_downsample_integrates [1, 2, 4] (3 / 2)).2 (by norm_num) (by norm_num)
  obtain ⟨out', hout'⟩ := C27_partial ([5, 5, 5] : List ℝ) 1 1 (by norm_num) (by norm_num) (by norm_num)
  have hr : pyRound 1 = 1 := by norm_num [pyRound]
  refine ⟨?_, ?_, ?_⟩
  · simp [tsNormalise, sharedWorld, World.obj, tsNew, tsInit, World.newArray, Except.bind, World.metaOf, hmd]
  · simp [tsDownsample, sharedWorld, World.obj, tsNew, tsInit, World.newArray, Except.bind, World.metaOf, World.dataOf, hmd,
      hout, liftCall]
  · simp [tsDeredden, sharedWorld, World.obj, tsNew, tsInit, World.newArray, Except.bind, World.metaOf, World.dataOf, hmd,
      hout', liftCall, runningMedianOf, hr]

/-- In contrast, an in-place operation changes every time series that shares the array: `deredden(inplace=True)` of one
series (window of one sample) sets the data of the other one to zero. -/
theorem C39_inplace_deredden_is_shared :
    ∃ w', tsDeredden (sharedWorld [5, 5, 5]) 0 1 1 true = .ok (w', none) ∧
      (sharedWorld [5, 5, 5]).objs[1]? = some ⟨0, 1, 1⟩ ∧ (sharedWorld [5, 5, 5]).dataOf ⟨0, 1, 1⟩ = [5, 5, 5] ∧
      w'.objs[1]? = some ⟨0, 1, 1⟩ ∧ w'.dataOf ⟨0, 1, 1⟩ = [0, 0, 0] := by
  have hr : pyRound 1 = 1 := by norm_num [pyRound]
  have hx : (sharedWorld [5, 5, 5]).dataOf ⟨0, 1, 0⟩ = [5, 5, 5] := rfl
  have hmed : fastRunningMedian ([5, 5, 5] : List ℝ) 1 1 = .ok [5, 5, 5] := by
    obtain ⟨out, hout⟩ := C27_partial ([5, 5, 5] : List ℝ) 1 1 (by norm_num) (by norm_num) (by norm_num)
    rw [hout, (C28_constant 3 1 1 (5 : ℝ) out hout).1]
    rfl
  refine ⟨{ sharedWorld [5, 5, 5] with arrays := [[0, 0, 0]] }, ?_, rfl, rfl, rfl, rfl⟩
  have hobj : (sharedWorld [5, 5, 5]).obj 0 = .ok ⟨0, 1, 0⟩ := rfl
  unfold tsDeredden
  rw [hobj]
  simp only [Except.bind, hx, runningMedianOf]
  norm_num [hr, hmed, liftCall, subtractArrays, sharedWorld]

/-! ## C40 -/

/-- An operation on the time series of a world; `id` is the object the method is called on. -/
inductive TsOp
  | create (data : ℕ) (tsamp : ℝ) (items : PyDict String MVal) (copy : Bool)
  | normalise (id : ℕ) (inplace : Bool)
  | deredden (id : ℕ) (width : ℝ) (minpts : ℕ) (inplace : Bool)
  | downsample (id : ℕ) (factor : ℝ) (inplace : Bool)
  | fold (id : ℕ) (period : ℝ) (bins : ℕ) (subints : Option ℤ)

/-- Effect of an operation; one that raises an exception has no effect. -/
noncomputable def TsOp.step (w : World) : TsOp → World
  | .create data tsamp items copy => match tsInit w data tsamp items copy with | .ok (w', _) => w' | .error _ => w
  | .normalise id inplace => match tsNormalise w id inplace with | .ok (w', _) => w' | .error _ => w
  | .deredden id width minpts inplace => match tsDeredden w id width minpts inplace with | .ok (w', _) => w' | .error _ => w
  | .downsample id factor inplace => match tsDownsample w id factor inplace with | .ok (w', _) => w' | .error _ => w
  | .fold id period bins subints => match tsFold w id period bins subints with | .ok (w', _) => w' | .error _ => w

/-- References are valid, and `metadata['tobs']` is the number of samples times the sampling time. -/
def TobsOK (w : World) : Prop := ∀ o ∈ w.objs, o.data < w.arrays.length ∧ o.metadata < w.metas.length ∧
  dictGet (w.metaOf o) "tobs" = some (.num (w.lengthOf o))

theorem getD_prefix {α : Type*} {l l' : List α} (h : l <+: l') {i : ℕ} (hi : i < l.length) (d : α) :
    l'.getD i d = l.getD i d := by
  obtain ⟨t, rfl⟩ := h
  simp [List.getD, List.getElem?_append_left hi]

theorem TobsOK.extend {w w' : World} (h : TobsOK w) (he : Extends w w') (hnew : ∀ o ∈ w'.objs, o ∉ w.objs →
    o.data < w'.arrays.length ∧ o.metadata < w'.metas.length ∧ dictGet (w'.metaOf o) "tobs" = some (.num (w'.lengthOf o))) :
    TobsOK w' := by
  intro o ho
  by_cases h1 : o ∈ w.objs
  · obtain ⟨h2, h3, h4⟩ := h o h1
    refine ⟨h2.trans_le he.1.length_le, h3.trans_le he.2.1.length_le, ?_⟩
    unfold World.metaOf World.lengthOf World.dataOf at *
    rw [getD_prefix he.1 h2, getD_prefix he.2.1 h3, h4]
  · exact hnew o ho h1

theorem TobsOK.tsNew {w w' : World} {x : List ℝ} {tsamp : ℝ} {items : PyDict String MVal} {i : ℕ} (hw : TobsOK w)
    (h : tsNew w x tsamp items = .ok (w', i)) : TobsOK w' := by
  refine hw.extend (tsNew_extends h) ?_
  obtain ⟨_, h1, h2, md, h3, h4, _⟩ := tsNew_inv h
  intro o ho hn
  rw [h2, List.mem_append] at ho
  rcases ho with ho | ho
  · exact absurd ho hn
  · rw [List.mem_singleton] at ho
    subst ho
    unfold World.metaOf World.lengthOf World.dataOf
    rw [h1, h3]
    simp [List.getD, h4]

/-- Changing the contents of an array but not its length does not affect `tobs`. -/
theorem TobsOK.setArray {w : World} (hw : TobsOK w) (k : ℕ) (x : List ℝ) (hx : x.length = (w.arrays.getD k []).length) :
    TobsOK { w with arrays := w.arrays.set k x } := by
  intro o ho
  obtain ⟨h1, h2, h3⟩ := hw o ho
  refine ⟨by simpa using h1, h2, ?_⟩
  unfold World.metaOf World.lengthOf World.dataOf at *
  rw [h3]
  by_cases hk : k = o.data
  · subst hk
    simp [List.getD, h1, hx]
  · simp [List.getD, List.getElem?_set_ne hk]

theorem runningMedianOf_length {x rmed : List ℝ} {tsamp width : ℝ} {minpts : ℕ}
    (h : runningMedianOf x tsamp width minpts = .ok rmed) : rmed.length = x.length := by
  unfold runningMedianOf at h
  simp only at h
  split_ifs at h with h1 h2
  cases hf : fastRunningMedian x (pyRound (width / tsamp)).toNat minpts with
  | error e => rw [hf] at h; cases e <;> simp [liftCall] at h
  | ok out =>
    rw [hf] at h
    simp only [liftCall, Except.ok.injEq] at h
    subst h
    obtain ⟨_, ⟨_, h3⟩ | ⟨_, _, _, h3⟩⟩ := fast_ok_inv hf
    · exact (runningMedian_mem h3).1
    · rw [h3]; simp

theorem TobsOK.rebind {w : World} (hw : TobsOK w) {id : ℕ} {o : TsObj} (ho : w.objs[id]? = some o) (x : List ℝ)
    (tsamp : ℝ) (hx : (x.length : ℝ) * tsamp = w.lengthOf o) : TobsOK (w.rebindData id o x tsamp) := by
  have he : Extends w { w with arrays := w.arrays ++ [x] } :=
    ⟨List.prefix_append _ _, List.prefix_refl _, List.prefix_refl _⟩
  have hw1 := hw.extend he (fun o h1 h2 => absurd h1 h2)
  intro q hq
  simp only [World.rebindData, World.newArray] at hq
  have hmem : o ∈ w.objs := List.mem_of_getElem? ho
  rcases List.mem_or_eq_of_mem_set hq with h1 | h1
  · exact hw1 q h1
  · subst h1
    obtain ⟨h2, h3, h4⟩ := hw o hmem
    refine ⟨by simp [World.rebindData, World.newArray], h3, ?_⟩
    unfold World.metaOf at *
    simp only [World.rebindData, World.newArray] at *
    rw [h4, ← hx]
    simp [World.lengthOf, World.dataOf, List.getD]

/-- What `fold` leaves behind: a world that extends the old one, with `tobs` intact. -/
theorem TobsOK.fold {w w' : World} {id : ℕ} {period : ℝ} {bins : ℕ} {subints : Option ℤ} {out : NdArray} (hw : TobsOK w)
    (h : tsFold w id period bins subints = .ok (w', out)) : TobsOK w' := by
  obtain ⟨o, h1, h2⟩ := bind_ok_inv h
  obtain ⟨_, h3, h4⟩ := bind_ok_inv h2
  split_ifs at h4 with hts
  simp only at h4
  obtain ⟨⟨w1, r⟩, h5, h6⟩ := bind_ok_inv h4
  obtain ⟨tsdown, h7, h8⟩ := bind_ok_inv h6
  split_ifs at h8 with hm
  simp only at h8
  obtain ⟨out', h9, h10⟩ := bind_ok_inv h8
  cases h10
  obtain ⟨o', i, x, ho', rfl, _, h11⟩ := downsample_new_inv h5
  apply (hw.tsNew h11).setArray
  unfold World.dataOf
  rw [List.length_append, List.length_map, List.length_take, List.length_drop]
  omega

theorem tobs_step {w : World} (hw : TobsOK w) (op : TsOp) (h1 : ∀ id f, op ≠ .downsample id f true)
    (h2 : ∀ data tsamp items copy, op = .create data tsamp items copy → data < w.arrays.length) :
    TobsOK (op.step w) ∧ w.arrays.length ≤ (op.step w).arrays.length := by
  cases op with
  | create data tsamp items copy =>
    simp only [TsOp.step]
    have hd := h2 _ _ _ _ rfl
    cases h : tsInit w data tsamp items copy with
    | error e => exact ⟨hw, le_rfl⟩
    | ok r =>
      obtain ⟨w', i⟩ := r
      cases copy with
      | true =>
        have h' : tsNew w (w.arrays.getD data []) tsamp items = .ok (w', i) := h
        exact ⟨hw.tsNew h', (tsNew_extends h').1.length_le⟩
      | false =>
        unfold tsInit at h
        simp only [Bool.false_eq_true, if_false] at h
        obtain ⟨md, h3, h4⟩ := bind_ok_inv h
        cases h4
        refine ⟨?_, le_rfl⟩
        refine hw.extend ⟨List.prefix_refl _, List.prefix_append _ _, List.prefix_append _ _⟩ ?_
        intro o ho hn
        rcases List.mem_append.mp ho with ho | ho
        · exact absurd ho hn
        · rw [List.mem_singleton] at ho
          subst ho
          refine ⟨hd, by simp, ?_⟩
          simp [World.metaOf, World.lengthOf, World.dataOf, List.getD, dictGet_set]
  | normalise id inplace =>
    simp only [TsOp.step]
    cases h : tsNormalise w id inplace with
    | error e => exact ⟨hw, le_rfl⟩
    | ok r =>
      obtain ⟨w', i⟩ := r
      cases inplace with
      | false =>
        obtain ⟨o, j, _, _, h3⟩ := normalise_new_inv h
        exact ⟨hw.tsNew h3, (tsNew_extends h3).1.length_le⟩
      | true =>
        obtain ⟨o, h3, h4⟩ := bind_ok_inv h
        simp only [if_true] at h4
        cases h4
        refine ⟨hw.rebind (obj_ok_iff.mp h3) _ _ ?_, by simp [World.rebindData, World.newArray]⟩
        simp [normalised, World.lengthOf]
  | deredden id width minpts inplace =>
    simp only [TsOp.step]
    cases h : tsDeredden w id width minpts inplace with
    | error e => exact ⟨hw, le_rfl⟩
    | ok r =>
      obtain ⟨w', i⟩ := r
      cases inplace with
      | false =>
        obtain ⟨o, j, rmed, _, _, _, h3⟩ := deredden_new_inv h
        exact ⟨hw.tsNew h3, (tsNew_extends h3).1.length_le⟩
      | true =>
        obtain ⟨o, h3, h4⟩ := bind_ok_inv h
        obtain ⟨rmed, h5, h6⟩ := bind_ok_inv h4
        simp only [if_true] at h6
        cases h6
        refine ⟨hw.setArray _ _ ?_, by simp⟩
        rw [subtractArrays, List.length_zipWith, runningMedianOf_length h5, min_self]
        rfl
  | downsample id f inplace =>
    simp only [TsOp.step]
    cases inplace with
    | true => exact absurd rfl (h1 id f)
    | false =>
      cases h : tsDownsample w id f false with
      | error e => exact ⟨hw, le_rfl⟩
      | ok r =>
        obtain ⟨w', i⟩ := r
        obtain ⟨o, j, x, _, _, _, h3⟩ := downsample_new_inv h
        exact ⟨hw.tsNew h3, (tsNew_extends h3).1.length_le⟩
  | fold id period bins subints =>
    simp only [TsOp.step]
    cases h : tsFold w id period bins subints with
    | error e => exact ⟨hw, le_rfl⟩
    | ok r =>
      obtain ⟨w', out⟩ := r
      exact ⟨hw.fold h, (C39_fold_pure _ _ _ _ _ _ _ h).1.length_le⟩

/-- C40, what holds: every history of operations (creation of series from existing arrays, `normalise`, `deredden`, `downsample`,
`fold`) without an in-place `downsample` keeps `metadata['tobs']` of every series equal to the
length of its data. Missing: `downsample(inplace=True)`, for which the claim is false (`C40_false`, `C40_inplace_downsample`). -/
theorem C40_partial (w : World) (hw : TobsOK w) (ops : List TsOp) (hops : ∀ op ∈ ops, (∀ id f, op ≠ .downsample id f true) ∧
      ∀ data tsamp items copy, op = .create data tsamp items copy → data < w.arrays.length) :
    TobsOK (ops.foldl TsOp.step w) := by
  have key : ∀ (ops : List TsOp) (w' : World), TobsOK w' → w.arrays.length ≤ w'.arrays.length →
      (∀ op ∈ ops, (∀ id f, op ≠ .downsample id f true) ∧
        ∀ data tsamp items copy, op = .create data tsamp items copy → data < w.arrays.length) →
      TobsOK (ops.foldl TsOp.step w') := by
    intro ops
    induction ops with
    | nil => intro w' h _ _; exact h
    | cons op ops ih =>
      intro w' h1 h2 h3
      have h4 := h3 op (by simp)
      obtain ⟨h5, h6⟩ := tobs_step h1 op h4.1 (fun d t i c e => (h4.2 d t i c e).trans_le h2)
      exact ih _ h5 (h2.trans h6) (fun op hop => h3 op (List.mem_cons_of_mem _ hop))
  exact key ops w hw le_rfl hops

/-- A non-trivial history: the empty world with one array, two series that share it, in-place and other operations. -/
example : TobsOK ⟨[[1, 2, 4]], [], []⟩ ∧
    ∀ op ∈ [TsOp.create 0 1 [] false, .create 0 2 [("tobs", .num 7)] false, .deredden 0 1 1 true, .normalise 1 true,
      .downsample 0 (3 / 2) false], (∀ id f, op ≠ .downsample id f true) ∧
      ∀ data tsamp items copy, op = .create data tsamp items copy →
        data < (⟨[[1, 2, 4]], [], []⟩ : World).arrays.length := by
  constructor
  · intro o ho; cases ho
  · intro op hop
    simp only [List.mem_cons, List.not_mem_nil, or_false] at hop
    rcases hop with rfl | rfl | rfl | rfl | rfl <;> simp
    · rintro _ _ _ rfl _ _; rfl

/-- C40. After a successful in-place `downsample` by `f`, `metadata['tobs']` is right exactly if `f` divides the number
of samples (`⌊N/f⌋ f = N`). -/
theorem C40_inplace_downsample (w w' : World) (hw : TobsOK w) (id : ℕ) (o : TsObj) (ho : w.objs[id]? = some o)
    (hts : o.tsamp ≠ 0) (f : ℝ) (r : Option ℕ) (h : tsDownsample w id f true = .ok (w', r)) :
    ∃ o', w'.objs[id]? = some o' ∧ o'.tsamp = o.tsamp * f ∧
      (w'.dataOf o').length = ⌊((w.dataOf o).length : ℝ) / f⌋₊ ∧
      (dictGet (w'.metaOf o') "tobs" = some (.num (w'.lengthOf o')) ↔
        (⌊((w.dataOf o).length : ℝ) / f⌋₊ : ℝ) * f = (w.dataOf o).length) := by
  obtain ⟨o1, h1, h2⟩ := bind_ok_inv h
  rw [obj_ok_iff, ho] at h1
  cases h1
  obtain ⟨x, h3, h4⟩ := bind_ok_inv h2
  simp only [if_true] at h4
  cases h4
  have hx : downsampleBinding (w.dataOf o) f = .ok x := by
    revert h3
    cases downsampleBinding (w.dataOf o) f with
    | ok y => intro h; simpa [liftCall] using h
    | error e => cases e <;> (intro h; simp [liftCall] at h)
  have hlen : x.length = ⌊((w.dataOf o).length : ℝ) / f⌋₊ := by
    obtain ⟨_, rfl⟩ := downsample_ok_inv hx
    simp [downsampledSize]
  have hid : id < w.objs.length := (List.getElem?_eq_some_iff.mp ho).1
  have hdata : (w.rebindData id o x (o.tsamp * f)).dataOf ⟨w.arrays.length, o.tsamp * f, o.metadata⟩ = x := by
    simp [World.dataOf, World.rebindData, World.newArray, List.getD]
  refine ⟨⟨w.arrays.length, o.tsamp * f, o.metadata⟩, ?_, rfl, ?_, ?_⟩
  · simp [World.rebindData, World.newArray, hid]
  · rw [hdata, hlen]
  · have hm : (w.rebindData id o x (o.tsamp * f)).metaOf ⟨w.arrays.length, o.tsamp * f, o.metadata⟩ = w.metaOf o := rfl
    rw [hm, (hw o (List.mem_of_getElem? ho)).2.2]
    simp only [World.lengthOf, hdata, hlen, Option.some.injEq, MVal.num.injEq]
    constructor
    · intro e
      apply mul_right_cancel₀ hts
      linear_combination -e
    · intro e
      linear_combination -e * o.tsamp

/-- C40 is false: the series `[1, 2, 4]` with sampling time 1, downsampled in place by 2, has one sample of 2 seconds
but `metadata['tobs']` is still 3. -/
theorem C40_false : ∃ w : World, TobsOK w ∧ ∃ id f w' r, tsDownsample w id f true = .ok (w', r) ∧ ¬ TobsOK w' := by
  refine ⟨sharedWorld [1, 2, 4], ?_, 0, 2, ?_⟩
  · intro o ho
    simp only [sharedWorld, List.mem_cons, List.not_mem_nil, or_false] at ho
    rcases ho with rfl | rfl <;>
      norm_num [sharedWorld, World.metaOf, World.lengthOf, World.dataOf, List.getD, dictGet]
  · obtain ⟨out, hout, hl, _⟩ := (C14_downsample_integrates [1, 2, 4] 2).2 (by norm_num) (by norm_num)
    have hl1 : out.length = 1 := by rw [hl, Nat.floor_eq_iff (by positivity)]; norm_num
    refine ⟨(sharedWorld [1, 2, 4]).rebindData 0 ⟨0, 1, 0⟩ out (1 * 2), none, ?_, ?_⟩
    · simp [tsDownsample, sharedWorld, World.obj, World.dataOf, hout, liftCall, Except.bind]
    · intro hc
      have := (hc ⟨1, 1 * 2, 0⟩ (by simp [World.rebindData, World.newArray, sharedWorld])).2.2
      norm_num [World.rebindData, World.newArray, sharedWorld, World.metaOf, World.lengthOf, World.dataOf, List.getD,
        dictGet, hl1] at this

/-! ## C41 -/

theorem sum_map_affine (x : List ℝ) (a b : ℝ) : (x.map (fun v => a * v + b)).sum = a * x.sum + x.length * b := by
  induction x with
  | nil => simp
  | cons v x ih => simp only [List.map_cons, List.sum_cons, ih, List.length_cons]; push_cast; ring

theorem sum_map_mul (x : List ℝ) (g : ℝ → ℝ) (c : ℝ) : (x.map (fun v => c * g v)).sum = c * (x.map g).sum := by
  induction x with
  | nil => simp
  | cons v x ih => simp only [List.map_cons, List.sum_cons, ih]; ring

theorem sum_sq_nonneg (x : List ℝ) (g : ℝ → ℝ) : 0 ≤ (x.map (fun v => g v ^ 2)).sum := by
  apply List.sum_nonneg
  intro a ha
  obtain ⟨v, _, rfl⟩ := List.mem_map.mp ha
  positivity

theorem sum_sq_pos {x : List ℝ} {g : ℝ → ℝ} {v : ℝ} (hv : v ∈ x) (h : g v ≠ 0) : 0 < (x.map (fun v => g v ^ 2)).sum := by
  induction x with
  | nil => cases hv
  | cons a x ih =>
    simp only [List.map_cons, List.sum_cons]
    rcases List.mem_cons.mp hv with rfl | hv
    · have := sum_sq_nonneg x g
      have : 0 < g v ^ 2 := by positivity
      linarith
    · have := ih hv
      nlinarith [sq_nonneg (g a)]

theorem varOf_pos {x : List ℝ} {a b : ℝ} (ha : a ∈ x) (hb : b ∈ x) (hab : a ≠ b) : 0 < varOf x := by
  have hl : (0 : ℝ) < x.length := by exact_mod_cast List.length_pos_of_mem ha
  unfold varOf
  apply div_pos _ hl
  by_cases h : a - meanOf x = 0
  · exact sum_sq_pos (g := fun v => v - meanOf x) hb (by intro h2; apply hab; linarith)
  · exact sum_sq_pos (g := fun v => v - meanOf x) ha h

/-- Sum and sum of squares of the normalised data. -/
theorem normalised_moments {x : List ℝ} (hl : x ≠ []) (hv : 0 < varOf x) :
    (normalised x).sum = 0 ∧ ((normalised x).map (fun v : ℝ => v ^ 2)).sum = (x.length : ℝ) := by
  have hl0 : (x.length : ℝ) ≠ 0 := by
    have := List.length_pos_of_ne_nil hl
    positivity
  have hs : Real.sqrt (varOf x) ≠ 0 := (Real.sqrt_pos.mpr hv).ne'
  constructor
  · have : normalised x = x.map (fun v => (Real.sqrt (varOf x))⁻¹ * v + -(meanOf x / Real.sqrt (varOf x))) := by
      unfold normalised
      apply List.map_congr_left
      intro v _
      field_simp
      ring
    rw [this, sum_map_affine]
    unfold meanOf
    field_simp
    ring
  · have : (normalised x).map (fun v : ℝ => v ^ 2) = x.map (fun v => (varOf x)⁻¹ * (v - meanOf x) ^ 2) := by
      unfold normalised
      rw [List.map_map]
      apply List.map_congr_left
      intro v _
      simp only [Function.comp_apply]
      rw [div_pow, Real.sq_sqrt hv.le]
      field_simp
    rw [this, sum_map_mul x (fun v => (v - meanOf x) ^ 2)]
    have hS : (x.map (fun v => (v - meanOf x) ^ 2)).sum = varOf x * x.length := by
      unfold varOf; field_simp
    rw [hS]
    field_simp

/-- Data with zero mean and unit variance are not changed. -/
theorem normalised_fixed {y : List ℝ} (hl : y ≠ []) (h1 : y.sum = 0) (h2 : (y.map (fun v : ℝ => v ^ 2)).sum = (y.length : ℝ)) :
    normalised y = y := by
  have hl0 : (y.length : ℝ) ≠ 0 := by
    have := List.length_pos_of_ne_nil hl
    positivity
  have hm : meanOf y = 0 := by simp [meanOf, h1]
  have hv : varOf y = 1 := by
    unfold varOf
    simp only [hm, sub_zero]
    rw [h2]
    field_simp
  unfold normalised
  simp [hm, hv]

/-- Positive gain and offset have no effect. -/
theorem normalised_affine {x : List ℝ} (hl : x ≠ []) {g : ℝ} (hg : 0 < g) (c : ℝ) :
    normalised (x.map (fun v => g * v + c)) = normalised x := by
  have hl0 : (x.length : ℝ) ≠ 0 := by
    have := List.length_pos_of_ne_nil hl
    positivity
  have hm : meanOf (x.map (fun v => g * v + c)) = g * meanOf x + c := by
    unfold meanOf
    rw [sum_map_affine, List.length_map]
    field_simp
  have hv : varOf (x.map (fun v => g * v + c)) = g ^ 2 * varOf x := by
    unfold varOf
    rw [List.map_map, hm, List.length_map]
    have : ((fun v => (v - (g * meanOf x + c)) ^ 2) ∘ fun v => g * v + c) = fun v => g ^ 2 * (v - meanOf x) ^ 2 := by
      funext v; simp only [Function.comp_apply]; ring
    rw [this, sum_map_mul x (fun v => (v - meanOf x) ^ 2)]
    ring
  unfold normalised
  rw [List.map_map, hm, hv, Real.sqrt_mul (by positivity), Real.sqrt_sq hg.le]
  apply List.map_congr_left
  intro v _
  simp only [Function.comp_apply]
  rw [show g * v + c - (g * meanOf x + c) = g * (v - meanOf x) by ring]
  rw [mul_div_mul_left _ _ hg.ne']

/-- The series holding the result of an operation: the new one, or the one the method was called on. -/
def resultOf (id : ℕ) (r : Option ℕ) : ℕ := r.getD id

theorem normalise_data {w w' : World} {id : ℕ} {o : TsObj} (ho : w.objs[id]? = some o) {inplace : Bool} {r : Option ℕ}
    (h : tsNormalise w id inplace = .ok (w', r)) :
    ∃ o', w'.objs[resultOf id r]? = some o' ∧ o'.tsamp = o.tsamp ∧ w'.dataOf o' = normalised (w.dataOf o) := by
  cases inplace with
  | false =>
    obtain ⟨o1, i, h1, rfl, h2⟩ := normalise_new_inv h
    rw [ho] at h1
    cases h1
    obtain ⟨rfl, h3, h4, _⟩ := tsNew_inv h2
    refine ⟨⟨w.arrays.length, o.tsamp, w.metas.length⟩, by simp [resultOf, h4], rfl, by simp [World.dataOf, h3, List.getD]⟩
  | true =>
    obtain ⟨o1, h1, h2⟩ := bind_ok_inv h
    rw [obj_ok_iff, ho] at h1
    cases h1
    simp only [if_true] at h2
    cases h2
    have hid : id < w.objs.length := (List.getElem?_eq_some_iff.mp ho).1
    refine ⟨⟨w.arrays.length, o.tsamp, o.metadata⟩, ?_, rfl, ?_⟩
    · simp [resultOf, World.rebindData, World.newArray, hid]
    · simp [World.dataOf, World.rebindData, World.newArray, List.getD]

/-- C41. `normalise` of a series that is not constant gives, in place or not, data of the same length and sampling time with zero mean
(zero sum) and unit variance (the squares sum to the number of samples). -/
theorem C41_zero_mean_unit_variance (w w' : World) (id : ℕ) (o : TsObj) (ho : w.objs[id]? = some o) (a b : ℝ)
    (ha : a ∈ w.dataOf o) (hb : b ∈ w.dataOf o) (hab : a ≠ b) (inplace : Bool) (r : Option ℕ)
    (h : tsNormalise w id inplace = .ok (w', r)) :
    ∃ o', w'.objs[resultOf id r]? = some o' ∧ o'.tsamp = o.tsamp ∧ (w'.dataOf o').length = (w.dataOf o).length ∧
      (w'.dataOf o').sum = 0 ∧ ((w'.dataOf o').map (fun v : ℝ => v ^ 2)).sum = ((w'.dataOf o').length : ℝ) := by
  obtain ⟨o', h1, h2, h3⟩ := normalise_data ho h
  obtain ⟨h4, h5⟩ := normalised_moments (List.ne_nil_of_mem ha) (varOf_pos ha hb hab)
  refine ⟨o', h1, h2, by rw [h3]; simp [normalised], by rw [h3, h4], ?_⟩
  rw [h3, h5]
  simp [normalised]

/-- C41. Normalising twice is the same as normalising once. -/
theorem C41_idempotent (w w' w'' : World) (id : ℕ) (o : TsObj) (ho : w.objs[id]? = some o) (a b : ℝ)
    (ha : a ∈ w.dataOf o) (hb : b ∈ w.dataOf o) (hab : a ≠ b) (inplace inplace' : Bool) (r r' : Option ℕ)
    (h : tsNormalise w id inplace = .ok (w', r)) (h' : tsNormalise w' (resultOf id r) inplace' = .ok (w'', r')) :
    ∃ o' o'', w'.objs[resultOf id r]? = some o' ∧ w''.objs[resultOf (resultOf id r) r']? = some o'' ∧
      w''.dataOf o'' = w'.dataOf o' := by
  obtain ⟨o', h1, h2, h3⟩ := normalise_data ho h
  obtain ⟨o'', h4, h5, h6⟩ := normalise_data h1 h'
  refine ⟨o', o'', h1, h4, ?_⟩
  have hne := List.ne_nil_of_mem ha
  obtain ⟨h7, h8⟩ := normalised_moments hne (varOf_pos ha hb hab)
  rw [h6, h3]
  apply normalised_fixed (by simpa [normalised] using hne) h7
  rw [h8]
  simp [normalised]

/-- C41. Two series that differ by a positive gain and an offset are normalised to the same data. -/
theorem C41_gain_offset_invariant (w₁ w₁' w₂ w₂' : World) (id₁ id₂ : ℕ) (o₁ o₂ : TsObj) (ho₁ : w₁.objs[id₁]? = some o₁)
    (ho₂ : w₂.objs[id₂]? = some o₂) (hne : w₁.dataOf o₁ ≠ []) (g c : ℝ) (hg : 0 < g)
    (hx : w₂.dataOf o₂ = (w₁.dataOf o₁).map (fun v => g * v + c)) (i₁ i₂ : Bool) (r₁ r₂ : Option ℕ)
    (h₁ : tsNormalise w₁ id₁ i₁ = .ok (w₁', r₁)) (h₂ : tsNormalise w₂ id₂ i₂ = .ok (w₂', r₂)) :
    ∃ o₁' o₂', w₁'.objs[resultOf id₁ r₁]? = some o₁' ∧ w₂'.objs[resultOf id₂ r₂]? = some o₂' ∧
      w₂'.dataOf o₂' = w₁'.dataOf o₁' := by
  obtain ⟨o₁', h1, _, h3⟩ := normalise_data ho₁ h₁
  obtain ⟨o₂', h4, _, h6⟩ := normalise_data ho₂ h₂
  refine ⟨o₁', o₂', h1, h4, ?_⟩
  rw [h6, h3, hx, normalised_affine hne hg]

/-- The data `[1, 2, 4]` are not constant and can be normalised. -/
example : ∃ o, (sharedWorld [1, 2, 4]).objs[0]? = some o ∧ (1 : ℝ) ∈ (sharedWorld [1, 2, 4]).dataOf o ∧
    (2 : ℝ) ∈ (sharedWorld [1, 2, 4]).dataOf o ∧ (1 : ℝ) ≠ 2 ∧
    ∃ w' r, tsNormalise (sharedWorld [1, 2, 4]) 0 true = .ok (w', r) := by
  refine ⟨⟨0, 1, 0⟩, rfl, by simp [sharedWorld, World.dataOf], by simp [sharedWorld, World.dataOf], by norm_num, ?_⟩
  simp [tsNormalise, sharedWorld, World.obj, Except.bind]

end Verif.Props
