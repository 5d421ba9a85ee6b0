import Verif.Lemmas.ObjectCompose
import Verif.Props.ObjectOps
import Verif.Props.ObjectStats

/-!
# Collecting cells of array objects

`reduce`, `cumulative`, `resample_and_reduce` and `jackknife_and_reduce` of an array object whose cells
stand for samples give cells that stand for the samples collected.
-/

set_option linter.unusedSectionVars false

namespace Cmomy

open Spec Nd Axes ObjectOps

section Collect

variable {K : Type*} [Field K] [LinearOrder K] [IsStrictOrderedRing K] {obj : Arr K} {vs : List ℕ}

theorem ord1 {order : ℕ} {L : (ℕ → ℕ) → List (Sample K)}
    (hS : Stands core1 (Holds order) obj vs [order + 1] L) : 1 ≤ order := by
  have := hS.object.orders (order + 1) (by simp); omega

theorem ord2 {o0 o1 : ℕ} {L : (ℕ → ℕ) → List (Sample2 K)}
    (hS : Stands core2 (Holds2 o0 o1) obj vs [o0 + 1, o1 + 1] L) : 1 ≤ o0 ∧ 1 ≤ o1 := by
  have h0 := hS.object.orders (o0 + 1) (by simp)
  have h1 := hS.object.orders (o1 + 1) (by simp)
  omega

theorem exStat_nonneg : ∀ i, InBounds [2] i → 0 ≤ weight (exStatL i) := by
  intro i _
  unfold exStatL
  split_ifs <;> norm_num [weight]

/-- Two cells with one pair each. -/
def exColl2 : Arr ℚ := ⟨[2, 2, 2], fun i =>
  if i 1 = 0 then (if i 2 = 0 then 1 else 2) else (if i 2 = 0 then i 0 else 0)⟩

def exColl2L (i : ℕ → ℕ) : List (Sample2 ℚ) := [⟨1, i 0, 2⟩]

theorem exColl2_stands : Stands core2 (Holds2 1 1) exColl2 [2] [2, 2] exColl2L where
  object := {
    proper := by
      intro i j h
      have h0 := h 0 (by decide)
      have h1 := h 1 (by decide)
      have h2 := h 2 (by decide)
      simp [exColl2, h0, h1, h2]
    shape := rfl
    count := by decide
    orders := by decide }
  nd := rfl
  holds := by
    intro i hi
    refine .inl ⟨by norm_num [exColl2L, weight2], ?_, ?_, ?_, fun m n h1 h2 h3 => ?_⟩
    · norm_num [exColl2L, exColl2, core2, atMom, weight2]
    · norm_num [exColl2L, exColl2, core2, atMom, weight2, meanX, wsum2]
    · norm_num [exColl2L, exColl2, core2, atMom, weight2, meanY, wsum2]
    · obtain rfl : m = 1 := by omega
      obtain rfl : n = 1 := by omega
      norm_num [exColl2L, exColl2, core2, atMom, weight2, meanX, meanY, wsum2, central2]

theorem exColl2_nonneg : ∀ i, InBounds [2] i → 0 ≤ weight2 (exColl2L i) := by
  intro i _
  norm_num [exColl2L, weight2]

/-- **C61** `obj.reduce(axis)` over one axis, several, or all of them: the value axes left (or kept with
size one, with `keepdims`) are in the old order, and each new cell stands for all samples behind the cells
it replaces. `axes_to_end` has no effect. -/
theorem C61_reduce {order : ℕ} {L : (ℕ → ℕ) → List (Sample K)}
    (hS : Stands core1 (Holds order) obj vs [order + 1] L)
    (hw : ∀ i, InBounds vs i → 0 ≤ weight (L i))
    {axis : AxesArg} {s : List ℕ} (ha : NamesAxes obj.shape.length 1 axis s) (hne : s ≠ [])
    (hlt : ∀ a ∈ s, a < vs.length) (hz : ∀ a < vs.length, a ∉ s → vs.getD a 0 ≠ 0)
    (keepdims axesToEnd : Bool) :
    ∃ out, ObjectOps.reduce core1 (kernel1 order) obj (some axis) none none axesToEnd keepdims = .ok out ∧
      ResultStands core1 (Holds order) out
        (if keepdims then (List.range vs.length).map (fun a => if a ∈ s then 1 else vs.getD a 0)
          else (keptAxes vs.length s).map (fun a => vs.getD a 0)) [order + 1]
        (fun i => allSamplesOver L vs s
          (readAs (if keepdims then List.range vs.length else keptAxes vs.length s) i)) :=
  Meaning.reduce_stands (meaning1 order (ord1 hS)) core1_ok hS hw ha hne hlt hz keepdims axesToEnd

/-- **C61**, comoments. -/
theorem C61_reduce_cov {o0 o1 : ℕ} {L : (ℕ → ℕ) → List (Sample2 K)}
    (hS : Stands core2 (Holds2 o0 o1) obj vs [o0 + 1, o1 + 1] L)
    (hw : ∀ i, InBounds vs i → 0 ≤ weight2 (L i))
    {axis : AxesArg} {s : List ℕ} (ha : NamesAxes obj.shape.length 2 axis s) (hne : s ≠ [])
    (hlt : ∀ a ∈ s, a < vs.length) (hz : ∀ a < vs.length, a ∉ s → vs.getD a 0 ≠ 0)
    (keepdims axesToEnd : Bool) :
    ∃ out, ObjectOps.reduce core2 (kernel2 o0 o1) obj (some axis) none none axesToEnd keepdims = .ok out ∧
      ResultStands core2 (Holds2 o0 o1) out
        (if keepdims then (List.range vs.length).map (fun a => if a ∈ s then 1 else vs.getD a 0)
          else (keptAxes vs.length s).map (fun a => vs.getD a 0)) [o0 + 1, o1 + 1]
        (fun i => allSamplesOver L vs s
          (readAs (if keepdims then List.range vs.length else keptAxes vs.length s) i)) :=
  Meaning.reduce_stands (meaning2 o0 o1 (ord2 hS).1 (ord2 hS).2) core2_ok hS hw ha hne hlt hz keepdims axesToEnd

-- the reduction of both cells, and with `axis=None`
example := C61_reduce exStat_object.stands exStat_nonneg (axis := .one (.int 0)) (s := [0])
  ⟨0, rfl, by simp [NamesAxis, InRange, wrap, exStat]⟩ (by simp) (by simp) (by simp) true false
example := C61_reduce exStat_object.stands exStat_nonneg (axis := .all) (s := [0]) (by rfl) (by simp)
  (by simp) (by simp) false false
example : entries (ObjectOps.reduce core1 (kernel1 3) exStat (some .all) none none false false)
    [[0], [1], [2]] = some ([4], [some 5, some (11 / 5), some (64 / 25)]) := by decide +kernel
example : entries (ObjectOps.reduce core1 (kernel1 3) exStat (some (.one (.complex 0 (-1)))) none none
    true true) [[0, 0], [0, 1]] = some ([1, 4], [some 5, some (11 / 5)]) := by decide +kernel
example := C61_reduce_cov exColl2_stands exColl2_nonneg (axis := .one (.int 0)) (s := [0])
  ⟨0, rfl, by simp [NamesAxis, InRange, wrap, exColl2]⟩ (by simp) (by simp) (by simp) true false

/-- **C61** `obj.reduce(axis, by=...)` with group numbers: the axis gets one place per group, and the cell
of group `g` stands for the samples of the cells labelled `g`. `block` and `keepdims` have no effect. -/
theorem C61_reduce_by {order : ℕ} {L : (ℕ → ℕ) → List (Sample K)}
    (hS : Stands core1 (Holds order) obj vs [order + 1] L)
    (hw : ∀ i, InBounds vs i → 0 ≤ weight (L i))
    {axis : AxisArg} {ax : ℕ} (ha : NamesAxis obj.shape.length 1 axis ax) (hax : ax < vs.length)
    {by_ : List ℤ} {m : ℤ} (hl : by_.length = vs.getD ax 0) (hm : m ∈ by_)
    (hmax : ∀ l ∈ by_, l ≤ m) (h1 : -1 ≤ m) (block : Option ℤ) (axesToEnd keepdims : Bool) :
    ∃ out, ObjectOps.reduce core1 (kernel1 order) obj (some (.one axis)) (some by_) block axesToEnd keepdims
        = .ok out ∧
      ResultStands core1 (Holds order) out ((axesOfResult vs.length ax axesToEnd).map
          (fun a => if a = ax then (m + 1).toNat else vs.getD a 0)) [order + 1]
        (fun i => (groupRows (readAs (axesOfResult vs.length ax axesToEnd) i ax) by_
            (samplesAlong L ax (vs.getD ax 0)
              (readAs (axesOfResult vs.length ax axesToEnd) i))).flatten) :=
  Meaning.grouped_stands (meaning1 order (ord1 hS)) core1_ok hS hw ha hax hl hm hmax h1 block axesToEnd keepdims

/-- **C61**, comoments. -/
theorem C61_reduce_by_cov {o0 o1 : ℕ} {L : (ℕ → ℕ) → List (Sample2 K)}
    (hS : Stands core2 (Holds2 o0 o1) obj vs [o0 + 1, o1 + 1] L)
    (hw : ∀ i, InBounds vs i → 0 ≤ weight2 (L i))
    {axis : AxisArg} {ax : ℕ} (ha : NamesAxis obj.shape.length 2 axis ax) (hax : ax < vs.length)
    {by_ : List ℤ} {m : ℤ} (hl : by_.length = vs.getD ax 0) (hm : m ∈ by_)
    (hmax : ∀ l ∈ by_, l ≤ m) (h1 : -1 ≤ m) (block : Option ℤ) (axesToEnd keepdims : Bool) :
    ∃ out, ObjectOps.reduce core2 (kernel2 o0 o1) obj (some (.one axis)) (some by_) block axesToEnd keepdims
        = .ok out ∧
      ResultStands core2 (Holds2 o0 o1) out ((axesOfResult vs.length ax axesToEnd).map
          (fun a => if a = ax then (m + 1).toNat else vs.getD a 0)) [o0 + 1, o1 + 1]
        (fun i => (groupRows (readAs (axesOfResult vs.length ax axesToEnd) i ax) by_
            (samplesAlong L ax (vs.getD ax 0)
              (readAs (axesOfResult vs.length ax axesToEnd) i))).flatten) :=
  Meaning.grouped_stands (meaning2 o0 o1 (ord2 hS).1 (ord2 hS).2) core2_ok hS hw ha hax hl hm hmax h1 block axesToEnd keepdims

example := C61_reduce_by exStat_object.stands exStat_nonneg (axis := .int 0) (ax := 0)
  (by simp [NamesAxis, InRange, wrap, exStat]) (by simp) (by_ := [1, -1]) (m := 1) (by simp) (by simp)
  (by simp) (by simp) (some 5) false true
example : entries (ObjectOps.reduce core1 (kernel1 3) exStat (some (.one (.int 0))) (some [1, -1])
    (some 5) false true) [[0, 0], [1, 0], [1, 1]] = some ([2, 4], [some 0, some 2, some 1]) := by
  decide +kernel
example := C61_reduce_by_cov exColl2_stands exColl2_nonneg (axis := .int 0) (ax := 0)
  (by simp [NamesAxis, InRange, wrap, exColl2]) (by simp) (by_ := [1, -1]) (m := 1) (by simp)
  (by simp) (by simp) (by simp) none false false

/-- **C61** `obj.reduce(axis, block=b)` with `b` between one and the size of the axis: there is one place for
each of the `size // b` whole blocks, and block `j` stands for the samples of the `b` cells from `b * j`
on; cells after the last whole block are left out. -/
theorem C61_reduce_block {order : ℕ} {L : (ℕ → ℕ) → List (Sample K)}
    (hS : Stands core1 (Holds order) obj vs [order + 1] L)
    (hw : ∀ i, InBounds vs i → 0 ≤ weight (L i))
    {axis : AxisArg} {ax : ℕ} (ha : NamesAxis obj.shape.length 1 axis ax) (hax : ax < vs.length)
    {b : ℕ} (h1 : 1 ≤ b) (h2 : b ≤ vs.getD ax 0) (axesToEnd keepdims : Bool) :
    ∃ out, ObjectOps.reduce core1 (kernel1 order) obj (some (.one axis)) none (some (b : ℤ)) axesToEnd keepdims
        = .ok out ∧
      ResultStands core1 (Holds order) out ((axesOfResult vs.length ax axesToEnd).map
          (fun a => if a = ax then vs.getD ax 0 / b else vs.getD a 0)) [order + 1]
        (fun i => (slice (samplesAlong L ax (vs.getD ax 0)
              (readAs (axesOfResult vs.length ax axesToEnd) i))
            (b * readAs (axesOfResult vs.length ax axesToEnd) i ax)
            (b * (readAs (axesOfResult vs.length ax axesToEnd) i ax + 1))).flatten) :=
  Meaning.block_stands (meaning1 order (ord1 hS)) core1_ok hS hw ha hax h1 h2 axesToEnd keepdims

/-- **C61**, comoments. -/
theorem C61_reduce_block_cov {o0 o1 : ℕ} {L : (ℕ → ℕ) → List (Sample2 K)}
    (hS : Stands core2 (Holds2 o0 o1) obj vs [o0 + 1, o1 + 1] L)
    (hw : ∀ i, InBounds vs i → 0 ≤ weight2 (L i))
    {axis : AxisArg} {ax : ℕ} (ha : NamesAxis obj.shape.length 2 axis ax) (hax : ax < vs.length)
    {b : ℕ} (h1 : 1 ≤ b) (h2 : b ≤ vs.getD ax 0) (axesToEnd keepdims : Bool) :
    ∃ out, ObjectOps.reduce core2 (kernel2 o0 o1) obj (some (.one axis)) none (some (b : ℤ)) axesToEnd keepdims
        = .ok out ∧
      ResultStands core2 (Holds2 o0 o1) out ((axesOfResult vs.length ax axesToEnd).map
          (fun a => if a = ax then vs.getD ax 0 / b else vs.getD a 0)) [o0 + 1, o1 + 1]
        (fun i => (slice (samplesAlong L ax (vs.getD ax 0)
              (readAs (axesOfResult vs.length ax axesToEnd) i))
            (b * readAs (axesOfResult vs.length ax axesToEnd) i ax)
            (b * (readAs (axesOfResult vs.length ax axesToEnd) i ax + 1))).flatten) :=
  Meaning.block_stands (meaning2 o0 o1 (ord2 hS).1 (ord2 hS).2) core2_ok hS hw ha hax h1 h2 axesToEnd keepdims

/-- **C61** `obj.reduce(axis, block=b)` with `b` zero or negative: one block of all cells. -/
theorem C61_reduce_one_block {order : ℕ} {L : (ℕ → ℕ) → List (Sample K)}
    (hS : Stands core1 (Holds order) obj vs [order + 1] L)
    (hw : ∀ i, InBounds vs i → 0 ≤ weight (L i))
    {axis : AxisArg} {ax : ℕ} (ha : NamesAxis obj.shape.length 1 axis ax) (hax : ax < vs.length)
    {b : ℤ} (hb : b ≤ 0) (h2 : vs.getD ax 0 ≠ 0) (axesToEnd keepdims : Bool) :
    ∃ out, ObjectOps.reduce core1 (kernel1 order) obj (some (.one axis)) none (some b) axesToEnd keepdims
        = .ok out ∧
      ResultStands core1 (Holds order) out ((axesOfResult vs.length ax axesToEnd).map
          (fun a => if a = ax then 1 else vs.getD a 0)) [order + 1]
        (fun i => (samplesAlong L ax (vs.getD ax 0)
              (readAs (axesOfResult vs.length ax axesToEnd) i)).flatten) :=
  Meaning.one_block_stands (meaning1 order (ord1 hS)) core1_ok hS hw ha hax hb h2 axesToEnd keepdims

/-- **C61**, comoments. -/
theorem C61_reduce_one_block_cov {o0 o1 : ℕ} {L : (ℕ → ℕ) → List (Sample2 K)}
    (hS : Stands core2 (Holds2 o0 o1) obj vs [o0 + 1, o1 + 1] L)
    (hw : ∀ i, InBounds vs i → 0 ≤ weight2 (L i))
    {axis : AxisArg} {ax : ℕ} (ha : NamesAxis obj.shape.length 2 axis ax) (hax : ax < vs.length)
    {b : ℤ} (hb : b ≤ 0) (h2 : vs.getD ax 0 ≠ 0) (axesToEnd keepdims : Bool) :
    ∃ out, ObjectOps.reduce core2 (kernel2 o0 o1) obj (some (.one axis)) none (some b) axesToEnd keepdims
        = .ok out ∧
      ResultStands core2 (Holds2 o0 o1) out ((axesOfResult vs.length ax axesToEnd).map
          (fun a => if a = ax then 1 else vs.getD a 0)) [o0 + 1, o1 + 1]
        (fun i => (samplesAlong L ax (vs.getD ax 0)
              (readAs (axesOfResult vs.length ax axesToEnd) i)).flatten) :=
  Meaning.one_block_stands (meaning2 o0 o1 (ord2 hS).1 (ord2 hS).2) core2_ok hS hw ha hax hb h2 axesToEnd keepdims

/-- **C61** A block longer than the axis is refused. -/
theorem C61_block_too_long {order : ℕ} {L : (ℕ → ℕ) → List (Sample K)}
    (hS : Stands core1 (Holds order) obj vs [order + 1] L)
    {axis : AxisArg} {ax : ℕ} (ha : NamesAxis obj.shape.length 1 axis ax) (hax : ax < vs.length)
    {b : ℤ} (hb : 0 < b) (h2 : (vs.getD ax 0 : ℤ) < b) (axesToEnd keepdims : Bool) :
    ObjectOps.reduce core1 (kernel1 order) obj (some (.one axis)) none (some b) axesToEnd keepdims
      = .error .valueError :=
  block_too_long hS ha hax (kernel1 order) hb h2 axesToEnd keepdims

/-- **C61**, comoments. -/
theorem C61_block_too_long_cov {o0 o1 : ℕ} {L : (ℕ → ℕ) → List (Sample2 K)}
    (hS : Stands core2 (Holds2 o0 o1) obj vs [o0 + 1, o1 + 1] L)
    {axis : AxisArg} {ax : ℕ} (ha : NamesAxis obj.shape.length 2 axis ax) (hax : ax < vs.length)
    {b : ℤ} (hb : 0 < b) (h2 : (vs.getD ax 0 : ℤ) < b) (axesToEnd keepdims : Bool) :
    ObjectOps.reduce core2 (kernel2 o0 o1) obj (some (.one axis)) none (some b) axesToEnd keepdims
      = .error .valueError :=
  block_too_long hS ha hax (kernel2 o0 o1) hb h2 axesToEnd keepdims

example := C61_reduce_block exStat_object.stands exStat_nonneg (axis := .int 0) (ax := 0)
  (by simp [NamesAxis, InRange, wrap, exStat]) (by simp) (b := 1) (by simp) (by simp) false true
example := C61_reduce_one_block exStat_object.stands exStat_nonneg (axis := .int 0) (ax := 0)
  (by simp [NamesAxis, InRange, wrap, exStat]) (by simp) (b := -1) (by simp) (by simp) false true
example := C61_block_too_long exStat_object.stands (axis := .int 0) (ax := 0)
  (by simp [NamesAxis, InRange, wrap, exStat]) (by simp) (b := 3) (by simp) (by simp) false true
example : entries (ObjectOps.reduce core1 (kernel1 3) exStat (some (.one (.int 0))) none (some 0)
    false false) [[0, 0], [0, 1]] = some ([1, 4], [some 5, some (11 / 5)]) := by decide +kernel
example := C61_reduce_block_cov exColl2_stands exColl2_nonneg (axis := .int 0) (ax := 0)
  (by simp [NamesAxis, InRange, wrap, exColl2]) (by simp) (b := 2) (by simp) (by simp) false true
example := C61_reduce_one_block_cov exColl2_stands exColl2_nonneg (axis := .int 0) (ax := 0)
  (by simp [NamesAxis, InRange, wrap, exColl2]) (by simp) (b := 0) (by simp) (by simp) false true
example := C61_block_too_long_cov exColl2_stands (axis := .int 0) (ax := 0)
  (by simp [NamesAxis, InRange, wrap, exColl2]) (by simp) (b := 3) (by simp) (by simp) false true

/-- **C61** `obj.cumulative(axis)`: place `j` of the axis stands for the samples of the cells up to and
including `j`. -/
theorem C61_cumulative {order : ℕ} {L : (ℕ → ℕ) → List (Sample K)}
    (hS : Stands core1 (Holds order) obj vs [order + 1] L)
    (hw : ∀ i, InBounds vs i → 0 ≤ weight (L i))
    {axis : AxisArg} {ax : ℕ} (ha : NamesAxis obj.shape.length 1 axis ax) (hax : ax < vs.length)
    (axesToEnd : Bool) :
    ∃ out, ObjectOps.cumulative core1 (kernel1 order) obj axis axesToEnd = .ok out ∧
      ResultStands core1 (Holds order) out
        ((axesOfResult vs.length ax axesToEnd).map (fun a => vs.getD a 0)) [order + 1]
        (fun i => ((samplesAlong L ax (vs.getD ax 0)
          (readAs (axesOfResult vs.length ax axesToEnd) i)).take
            (readAs (axesOfResult vs.length ax axesToEnd) i ax + 1)).flatten) :=
  Meaning.cumulative_stands (meaning1 order (ord1 hS)) core1_ok hS hw ha hax axesToEnd

/-- **C61**, comoments. -/
theorem C61_cumulative_cov {o0 o1 : ℕ} {L : (ℕ → ℕ) → List (Sample2 K)}
    (hS : Stands core2 (Holds2 o0 o1) obj vs [o0 + 1, o1 + 1] L)
    (hw : ∀ i, InBounds vs i → 0 ≤ weight2 (L i))
    {axis : AxisArg} {ax : ℕ} (ha : NamesAxis obj.shape.length 2 axis ax) (hax : ax < vs.length)
    (axesToEnd : Bool) :
    ∃ out, ObjectOps.cumulative core2 (kernel2 o0 o1) obj axis axesToEnd = .ok out ∧
      ResultStands core2 (Holds2 o0 o1) out
        ((axesOfResult vs.length ax axesToEnd).map (fun a => vs.getD a 0)) [o0 + 1, o1 + 1]
        (fun i => ((samplesAlong L ax (vs.getD ax 0)
          (readAs (axesOfResult vs.length ax axesToEnd) i)).take
            (readAs (axesOfResult vs.length ax axesToEnd) i ax + 1)).flatten) :=
  Meaning.cumulative_stands (meaning2 o0 o1 (ord2 hS).1 (ord2 hS).2) core2_ok hS hw ha hax axesToEnd

example := C61_cumulative exStat_object.stands exStat_nonneg (axis := .int 0) (ax := 0)
  (by simp [NamesAxis, InRange, wrap, exStat]) (by simp) true
example : entries (ObjectOps.cumulative core1 (kernel1 3) exStat (.int 0) true)
    [[0, 0], [0, 1], [1, 0], [1, 1]] = some ([2, 4], [some 2, some 1, some 5, some (11 / 5)]) := by
  decide +kernel
example := C61_cumulative_cov exColl2_stands exColl2_nonneg (axis := .int 0) (ax := 0)
  (by simp [NamesAxis, InRange, wrap, exColl2]) (by simp) true

/-- **C61** `obj.jackknife_and_reduce(axis)`: place `j` of the axis stands for the samples of all cells but
the one at `j`, if they have weight. -/
theorem C61_jackknife {order : ℕ} {L : (ℕ → ℕ) → List (Sample K)}
    (hS : Stands core1 (Holds order) obj vs [order + 1] L)
    (hw : ∀ i, InBounds vs i → 0 ≤ weight (L i))
    {axis : AxisArg} {ax : ℕ} (ha : NamesAxis obj.shape.length 1 axis ax) (hax : ax < vs.length)
    (hz : ∀ a < vs.length, a ≠ ax → vs.getD a 0 ≠ 0)
    (hne : ∀ i, InBounds vs i →
      weight ((samplesAlong L ax (vs.getD ax 0) i).eraseIdx (i ax)).flatten ≠ 0)
    (axesToEnd : Bool) :
    ∃ out, ObjectOps.jackknifeAndReduce core1 (kernel1 order) obj (some axis) axesToEnd = .ok out ∧
      ResultStands core1 (Holds order) out
        ((axesOfResult vs.length ax axesToEnd).map (fun a => vs.getD a 0)) [order + 1]
        (fun i => ((samplesAlong L ax (vs.getD ax 0)
          (readAs (axesOfResult vs.length ax axesToEnd) i)).eraseIdx
            (readAs (axesOfResult vs.length ax axesToEnd) i ax)).flatten) :=
  Meaning.jackknife_stands (meaning1 order (ord1 hS)) core1_ok hS hw ha hax hz hne axesToEnd

/-- **C61**, comoments. -/
theorem C61_jackknife_cov {o0 o1 : ℕ} {L : (ℕ → ℕ) → List (Sample2 K)}
    (hS : Stands core2 (Holds2 o0 o1) obj vs [o0 + 1, o1 + 1] L)
    (hw : ∀ i, InBounds vs i → 0 ≤ weight2 (L i))
    {axis : AxisArg} {ax : ℕ} (ha : NamesAxis obj.shape.length 2 axis ax) (hax : ax < vs.length)
    (hz : ∀ a < vs.length, a ≠ ax → vs.getD a 0 ≠ 0)
    (hne : ∀ i, InBounds vs i →
      weight2 ((samplesAlong L ax (vs.getD ax 0) i).eraseIdx (i ax)).flatten ≠ 0)
    (axesToEnd : Bool) :
    ∃ out, ObjectOps.jackknifeAndReduce core2 (kernel2 o0 o1) obj (some axis) axesToEnd = .ok out ∧
      ResultStands core2 (Holds2 o0 o1) out
        ((axesOfResult vs.length ax axesToEnd).map (fun a => vs.getD a 0)) [o0 + 1, o1 + 1]
        (fun i => ((samplesAlong L ax (vs.getD ax 0)
          (readAs (axesOfResult vs.length ax axesToEnd) i)).eraseIdx
            (readAs (axesOfResult vs.length ax axesToEnd) i ax)).flatten) :=
  Meaning.jackknife_stands (meaning2 o0 o1 (ord2 hS).1 (ord2 hS).2) core2_ok hS hw ha hax hz hne axesToEnd

example := C61_jackknife exStat_object.stands exStat_nonneg (axis := .int 0) (ax := 0)
  (by simp [NamesAxis, InRange, wrap, exStat]) (by simp) (by simp) (by
    intro i hi
    have h0 : i 0 < 2 := hi 0 (by decide)
    obtain e | e : i 0 = 0 ∨ i 0 = 1 := by omega
    all_goals norm_num [e, samplesAlong, exStatL, weight, List.range_succ]) true
example : entries (ObjectOps.jackknifeAndReduce core1 (kernel1 3) exStat (some (.int 0)) true)
    [[0, 0], [0, 1], [1, 0], [1, 1]] = some ([2, 4], [some 3, some 3, some 2, some 1]) := by
  decide +kernel
example := C61_jackknife_cov exColl2_stands exColl2_nonneg (axis := .int 0) (ax := 0)
  (by simp [NamesAxis, InRange, wrap, exColl2]) (by simp) (by simp) (by
    intro i hi
    have h0 : i 0 < 2 := hi 0 (by decide)
    obtain e | e : i 0 = 0 ∨ i 0 = 1 := by omega
    all_goals simp [e, samplesAlong, exColl2L, weight2, List.range_succ]) true

/-- **C61** `obj.resample_and_reduce(axis, sampler)` with a table of non-negative frequencies: replicate `r`
stands for the samples of all cells, those of cell `j` with their weight multiplied by `freq[r, j]`. -/
theorem C61_resample {order : ℕ} {L : (ℕ → ℕ) → List (Sample K)}
    (hS : Stands core1 (Holds order) obj vs [order + 1] L)
    (hw : ∀ i, InBounds vs i → 0 ≤ weight (L i))
    {axis : AxisArg} {ax : ℕ} (ha : NamesAxis obj.shape.length 1 axis ax) (hax : ax < vs.length)
    {freq : List (List K)} (hf : ∀ fs ∈ freq, ∀ f ∈ fs, 0 ≤ f) (axesToEnd : Bool) :
    ∃ out, ObjectOps.resampleAndReduce core1 (kernel1 order) obj freq (vs.getD ax 0) (some axis) axesToEnd
        = .ok out ∧
      ResultStands core1 (Holds order) out ((axesOfResult vs.length ax axesToEnd).map
          (fun a => if a = ax then freq.length else vs.getD a 0)) [order + 1]
        (fun i => ((freq.getD (readAs (axesOfResult vs.length ax axesToEnd) i ax) []).zip
            (samplesAlong L ax (vs.getD ax 0)
              (readAs (axesOfResult vs.length ax axesToEnd) i))).flatMap
          (fun p => p.2.map (reweighted p.1))) :=
  Meaning.resample_stands (meaning1 order (ord1 hS)) core1_ok hS hw ha hax hf axesToEnd

/-- **C61**, comoments. -/
theorem C61_resample_cov {o0 o1 : ℕ} {L : (ℕ → ℕ) → List (Sample2 K)}
    (hS : Stands core2 (Holds2 o0 o1) obj vs [o0 + 1, o1 + 1] L)
    (hw : ∀ i, InBounds vs i → 0 ≤ weight2 (L i))
    {axis : AxisArg} {ax : ℕ} (ha : NamesAxis obj.shape.length 2 axis ax) (hax : ax < vs.length)
    {freq : List (List K)} (hf : ∀ fs ∈ freq, ∀ f ∈ fs, 0 ≤ f) (axesToEnd : Bool) :
    ∃ out, ObjectOps.resampleAndReduce core2 (kernel2 o0 o1) obj freq (vs.getD ax 0) (some axis) axesToEnd
        = .ok out ∧
      ResultStands core2 (Holds2 o0 o1) out ((axesOfResult vs.length ax axesToEnd).map
          (fun a => if a = ax then freq.length else vs.getD a 0)) [o0 + 1, o1 + 1]
        (fun i => ((freq.getD (readAs (axesOfResult vs.length ax axesToEnd) i ax) []).zip
            (samplesAlong L ax (vs.getD ax 0)
              (readAs (axesOfResult vs.length ax axesToEnd) i))).flatMap
          (fun p => p.2.map (reweighted2 p.1))) :=
  Meaning.resample_stands (meaning2 o0 o1 (ord2 hS).1 (ord2 hS).2) core2_ok hS hw ha hax hf axesToEnd

/-- **C61** With the frequencies that count the entries of rows of indices, replicate `r` stands for the
samples of the cells listed in row `r`, each as often as it is listed. -/
theorem C61_resample_indices {order : ℕ} {L : (ℕ → ℕ) → List (Sample K)}
    (hS : Stands core1 (Holds order) obj vs [order + 1] L)
    (hw : ∀ i, InBounds vs i → 0 ≤ weight (L i))
    {axis : AxisArg} {ax : ℕ} (ha : NamesAxis obj.shape.length 1 axis ax) (hax : ax < vs.length)
    {idx : List (List ℕ)} (hi : ∀ row ∈ idx, ∀ j ∈ row, j < vs.getD ax 0) (axesToEnd : Bool) :
    ∃ out, ObjectOps.resampleAndReduce core1 (kernel1 order) obj
        (idx.map (fun row => (counts (vs.getD ax 0) row).map Nat.cast)) (vs.getD ax 0) (some axis)
        axesToEnd = .ok out ∧
      ResultStands core1 (Holds order) out ((axesOfResult vs.length ax axesToEnd).map
          (fun a => if a = ax then idx.length else vs.getD a 0)) [order + 1]
        (fun i => (takeAt (samplesAlong L ax (vs.getD ax 0)
              (readAs (axesOfResult vs.length ax axesToEnd) i))
            (idx.getD (readAs (axesOfResult vs.length ax axesToEnd) i ax) [])).flatten) :=
  Meaning.indices_stand (meaning1 order (ord1 hS)) core1_ok hS hw ha hax hi axesToEnd

/-- **C61**, comoments. -/
theorem C61_resample_indices_cov {o0 o1 : ℕ} {L : (ℕ → ℕ) → List (Sample2 K)}
    (hS : Stands core2 (Holds2 o0 o1) obj vs [o0 + 1, o1 + 1] L)
    (hw : ∀ i, InBounds vs i → 0 ≤ weight2 (L i))
    {axis : AxisArg} {ax : ℕ} (ha : NamesAxis obj.shape.length 2 axis ax) (hax : ax < vs.length)
    {idx : List (List ℕ)} (hi : ∀ row ∈ idx, ∀ j ∈ row, j < vs.getD ax 0) (axesToEnd : Bool) :
    ∃ out, ObjectOps.resampleAndReduce core2 (kernel2 o0 o1) obj
        (idx.map (fun row => (counts (vs.getD ax 0) row).map Nat.cast)) (vs.getD ax 0) (some axis)
        axesToEnd = .ok out ∧
      ResultStands core2 (Holds2 o0 o1) out ((axesOfResult vs.length ax axesToEnd).map
          (fun a => if a = ax then idx.length else vs.getD a 0)) [o0 + 1, o1 + 1]
        (fun i => (takeAt (samplesAlong L ax (vs.getD ax 0)
              (readAs (axesOfResult vs.length ax axesToEnd) i))
            (idx.getD (readAs (axesOfResult vs.length ax axesToEnd) i ax) [])).flatten) :=
  Meaning.indices_stand (meaning2 o0 o1 (ord2 hS).1 (ord2 hS).2) core2_ok hS hw ha hax hi axesToEnd

/-- **C61** A frequency table whose rows do not have the size of the axis is refused. -/
theorem C61_resample_wrong_size {order : ℕ} {L : (ℕ → ℕ) → List (Sample K)}
    (hS : Stands core1 (Holds order) obj vs [order + 1] L)
    {axis : AxisArg} {ax : ℕ} (ha : NamesAxis obj.shape.length 1 axis ax) (hax : ax < vs.length)
    (freq : List (List K)) {nsamp : ℕ} (hn : nsamp ≠ vs.getD ax 0) (axesToEnd : Bool) :
    ObjectOps.resampleAndReduce core1 (kernel1 order) obj freq nsamp (some axis) axesToEnd
      = .error .valueError :=
  resample_wrong_size core1_ok hS ha hax (kernel1 order) freq hn axesToEnd

/-- **C61**, comoments. -/
theorem C61_resample_wrong_size_cov {o0 o1 : ℕ} {L : (ℕ → ℕ) → List (Sample2 K)}
    (hS : Stands core2 (Holds2 o0 o1) obj vs [o0 + 1, o1 + 1] L)
    {axis : AxisArg} {ax : ℕ} (ha : NamesAxis obj.shape.length 2 axis ax) (hax : ax < vs.length)
    (freq : List (List K)) {nsamp : ℕ} (hn : nsamp ≠ vs.getD ax 0) (axesToEnd : Bool) :
    ObjectOps.resampleAndReduce core2 (kernel2 o0 o1) obj freq nsamp (some axis) axesToEnd
      = .error .valueError :=
  resample_wrong_size core2_ok hS ha hax (kernel2 o0 o1) freq hn axesToEnd

example := C61_resample exStat_object.stands exStat_nonneg (axis := .int 0) (ax := 0)
  (by simp [NamesAxis, InRange, wrap, exStat]) (by simp) (freq := [[2, 0], [1, 1 / 2], [0, 0]])
  (by simp) true
example := C61_resample_indices exStat_object.stands exStat_nonneg (axis := .int 0) (ax := 0)
  (by simp [NamesAxis, InRange, wrap, exStat]) (by simp) (idx := [[0, 0], [1, 0], [1, 1, 1]])
  (by simp) true
example := C61_resample_wrong_size exStat_object.stands (axis := .int 0) (ax := 0)
  (by simp [NamesAxis, InRange, wrap, exStat]) (by simp) [] (nsamp := 3) (by simp) true
example : entries (ObjectOps.resampleAndReduce core1 (kernel1 3) exStat [[2, 0], [1, 1], [0, 0]] 2
    (some (.int 0)) true) [[0, 0], [0, 1], [1, 0], [1, 1], [2, 0]]
    = some ([3, 4], [some 4, some 1, some 5, some (11 / 5), some 0]) := by decide +kernel
example := C61_resample_cov exColl2_stands exColl2_nonneg (axis := .int 0) (ax := 0)
  (by simp [NamesAxis, InRange, wrap, exColl2]) (by simp) (freq := [[2, 0], [1, 1 / 2], [0, 0]])
  (by simp) true
example := C61_resample_indices_cov exColl2_stands exColl2_nonneg (axis := .int 0) (ax := 0)
  (by simp [NamesAxis, InRange, wrap, exColl2]) (by simp) (idx := [[0, 0], [1, 0], [1, 1, 1]])
  (by simp) true
example := C61_resample_wrong_size_cov exColl2_stands (axis := .int 0) (ax := 0)
  (by simp [NamesAxis, InRange, wrap, exColl2]) (by simp) [] (nsamp := 3) (by simp) true

/-- **C61** Without an axis, `resample_and_reduce` and `jackknife_and_reduce` of an array object always
fail: the default axis `-1` is a moment axis. -/
theorem C61_default_axis_rejected {V M : Type*} {core : Core K M} (k : Kernel K V M) {ms : List ℕ}
    (h : IsObject obj vs ms) (hnd : ms.length = core.nd) (axesToEnd : Bool) :
    (∀ freq nsamp, ObjectOps.resampleAndReduce core k obj freq nsamp none axesToEnd
      = .error .valueError) ∧
    ObjectOps.jackknifeAndReduce core k obj none axesToEnd = .error .valueError :=
  default_axis_rejected k h hnd axesToEnd

example := C61_default_axis_rejected (core := core1) (kernel1 3) exStat_object.object rfl false
example := C61_default_axis_rejected (core := core2) (kernel2 1 1) exColl2_stands.object rfl false

/-- **C61** The results are array objects again: the array with these entries stands for the same samples,
so every statement about array objects applies to it. -/
theorem C61_result_is_object {order : ℕ} (ho : 1 ≤ order) {out : Arr (Option K)}
    {L : (ℕ → ℕ) → List (Sample K)}
    (h : ResultStands core1 (Holds order) out vs [order + 1] L) :
    ∃ arr, Stands core1 (Holds order) arr vs [order + 1] L ∧ out.shape = arr.shape ∧
      ∀ i, InBounds vs i → ∀ m, Within [order + 1] m →
        out.get (atMom vs.length i m) = some (arr.get (atMom vs.length i m)) := by
  obtain ⟨h1, h2⟩ := settled_stands h (.inl rfl) rfl (by simpa using ho) (fun A a b e hb => by
    refine holds_congr ho (fun n hn => ?_) hb
    exact e [n] (.cons (by omega) .nil)) core1_ok
  exact ⟨settled out, h1, rfl, h2⟩

/-- **C61**, comoments. -/
theorem C61_result_is_object_cov {o0 o1 : ℕ} (h0 : 1 ≤ o0) (h1 : 1 ≤ o1) {out : Arr (Option K)}
    {L : (ℕ → ℕ) → List (Sample2 K)}
    (h : ResultStands core2 (Holds2 o0 o1) out vs [o0 + 1, o1 + 1] L) :
    ∃ arr, Stands core2 (Holds2 o0 o1) arr vs [o0 + 1, o1 + 1] L ∧ out.shape = arr.shape ∧
      ∀ i, InBounds vs i → ∀ m, Within [o0 + 1, o1 + 1] m →
        out.get (atMom vs.length i m) = some (arr.get (atMom vs.length i m)) := by
  obtain ⟨h1, h2⟩ := settled_stands h (.inr rfl) rfl (by simp; omega) (fun A a b e hb => by
    refine holds2_congr h0 h1 (fun m n hm hn => ?_) hb
    exact e [m, n] (.cons (by omega) (.cons (by omega) .nil))) core2_ok
  exact ⟨settled out, h1, rfl, h2⟩

example : ∃ out arr, ObjectOps.reduce core1 (kernel1 3) exStat (some .all) none none false false
    = .ok out ∧ Stands core1 (Holds 3) arr [] [4] (fun i => allSamplesOver exStatL [2] [0]
      (readAs [] i)) := by
  obtain ⟨out, e, h⟩ := C61_reduce exStat_object.stands exStat_nonneg (axis := .all) (s := [0])
    (by rfl) (by simp) (by simp) (by simp) false false
  obtain ⟨arr, h', -⟩ := C61_result_is_object (by omega) h
  exact ⟨out, arr, e, h'⟩

/-- **C61** Two objects that stand for the same samples have the same entries, where these have weight. -/
theorem C61_same_samples {order : ℕ} (ho : 1 ≤ order) {out out' : Arr (Option K)}
    {L L' : (ℕ → ℕ) → List (Sample K)}
    (h : ResultStands core1 (Holds order) out vs [order + 1] L)
    (h' : ResultStands core1 (Holds order) out' vs [order + 1] L') :
    out.shape = out'.shape ∧ ∀ i, InBounds vs i → (L i).Perm (L' i) → weight (L i) ≠ 0 →
      ∀ m, Within [order + 1] m →
        out.get (atMom vs.length i m) = out'.get (atMom vs.length i m) := by
  refine ⟨by rw [h.shape, h'.shape], fun i hi hp hne m hm => ?_⟩
  obtain ⟨r, hr, e⟩ := h.holds i hi
  obtain ⟨r', hr', e'⟩ := h'.holds i hi
  let T := meaning1 (K := K) order ho
  have heq : T.raw (L i) = T.raw (L' i) := funext fun n => ((hp.map _).sum_eq)
  have := (eqv1_iff ho).1 ((lawful1 order ho).eqv_of_raw (a := r) (b := r')
    (by rw [T.cell_weight hr]; exact hne) (by rw [(T.iff _ _).1 hr, (T.iff _ _).1 hr', heq]))
  rw [e m hm, e' m hm]
  obtain ⟨a, rfl, ha⟩ := Select.within_one.1 hm
  exact congrArg some (this a (by omega))

/-- **C61**, comoments. -/
theorem C61_same_samples_cov {o0 o1 : ℕ} (h0 : 1 ≤ o0) (h1 : 1 ≤ o1) {out out' : Arr (Option K)}
    {L L' : (ℕ → ℕ) → List (Sample2 K)}
    (h : ResultStands core2 (Holds2 o0 o1) out vs [o0 + 1, o1 + 1] L)
    (h' : ResultStands core2 (Holds2 o0 o1) out' vs [o0 + 1, o1 + 1] L') :
    out.shape = out'.shape ∧ ∀ i, InBounds vs i → (L i).Perm (L' i) → weight2 (L i) ≠ 0 →
      ∀ m, Within [o0 + 1, o1 + 1] m →
        out.get (atMom vs.length i m) = out'.get (atMom vs.length i m) := by
  refine ⟨by rw [h.shape, h'.shape], fun i hi hp hne m hm => ?_⟩
  obtain ⟨r, hr, e⟩ := h.holds i hi
  obtain ⟨r', hr', e'⟩ := h'.holds i hi
  let T := meaning2 (K := K) o0 o1 h0 h1
  have heq : T.raw (L i) = T.raw (L' i) := funext fun n => ((hp.map _).sum_eq)
  have := (eqv2_iff h0 h1).1 ((lawful2 o0 o1 h0 h1).eqv_of_raw (a := r) (b := r')
    (by rw [T.cell_weight hr]; exact hne) (by rw [(T.iff _ _).1 hr, (T.iff _ _).1 hr', heq]))
  rw [e m hm, e' m hm]
  obtain ⟨a, b, rfl, ha, hb⟩ := Select.within_two.1 hm
  exact congrArg some (this a b (by omega) (by omega))

/-- **C61** `obj.resample(indices, axis, last=True).reduce(axis=-1j)` with a table of indices: replicate
`r`, on the last value axis, stands for the samples of the cells listed in row `r`. -/
theorem C61_resample_then_reduce {order : ℕ} {L : (ℕ → ℕ) → List (Sample K)}
    (hS : Stands core1 (Holds order) obj vs [order + 1] L)
    (hw : ∀ i, InBounds vs i → 0 ≤ weight (L i))
    {axis : AxisArg} {ax : ℕ} (ha : NamesAxis (vs.length + 1) 1 axis ax) (hax : ax < vs.length)
    (hz : ∀ a < vs.length, a ≠ ax → vs.getD a 0 ≠ 0) {nrep nsamp : ℕ} (hrep : nrep ≠ 0)
    {idx : IdxArr} {entry : List ℕ → ℤ} (he : HasEntries idx [nrep, nsamp] entry)
    (hr : ∀ c, Within [nrep, nsamp] c → InRange (vs.getD ax 0) (entry c)) :
    ∃ tmp out, ObjectOps.resample 1 obj idx (some axis) true = .ok tmp ∧
      ObjectOps.reduce core1 (kernel1 order) tmp (some (.one (.complex 0 (-1)))) none none false false = .ok out ∧
      ResultStands core1 (Holds order) out ((axesOfResult vs.length ax true).map
          (fun a => if a = ax then nrep else vs.getD a 0)) [order + 1]
        (fun i => (List.range nsamp).flatMap (fun q =>
          L (Function.update (readAs (axesOfResult vs.length ax true) i) ax
            (wrap (vs.getD ax 0)
              (entry [readAs (axesOfResult vs.length ax true) i ax, q]))))) :=
  (C60_resample_last hS.object ha hax he hr).elim fun tmp h =>
    (Meaning.taken_reduced (meaning1 order (ord1 hS)) core1_ok hS hw hax hz hrep hr (C60_cells_keep_samples h.2 hS)
      h.2.source).elim fun out h' => ⟨tmp, out, h.1, h'.1, h'.2⟩

/-- **C61**, comoments. -/
theorem C61_resample_then_reduce_cov {o0 o1 : ℕ} {L : (ℕ → ℕ) → List (Sample2 K)}
    (hS : Stands core2 (Holds2 o0 o1) obj vs [o0 + 1, o1 + 1] L)
    (hw : ∀ i, InBounds vs i → 0 ≤ weight2 (L i))
    {axis : AxisArg} {ax : ℕ} (ha : NamesAxis (vs.length + 2) 2 axis ax) (hax : ax < vs.length)
    (hz : ∀ a < vs.length, a ≠ ax → vs.getD a 0 ≠ 0) {nrep nsamp : ℕ} (hrep : nrep ≠ 0)
    {idx : IdxArr} {entry : List ℕ → ℤ} (he : HasEntries idx [nrep, nsamp] entry)
    (hr : ∀ c, Within [nrep, nsamp] c → InRange (vs.getD ax 0) (entry c)) :
    ∃ tmp out, ObjectOps.resample 2 obj idx (some axis) true = .ok tmp ∧
      ObjectOps.reduce core2 (kernel2 o0 o1) tmp (some (.one (.complex 0 (-1)))) none none false false = .ok out ∧
      ResultStands core2 (Holds2 o0 o1) out ((axesOfResult vs.length ax true).map
          (fun a => if a = ax then nrep else vs.getD a 0)) [o0 + 1, o1 + 1]
        (fun i => (List.range nsamp).flatMap (fun q =>
          L (Function.update (readAs (axesOfResult vs.length ax true) i) ax
            (wrap (vs.getD ax 0)
              (entry [readAs (axesOfResult vs.length ax true) i ax, q]))))) :=
  (C60_resample_last hS.object ha hax he hr).elim fun tmp h =>
    (Meaning.taken_reduced (meaning2 o0 o1 (ord2 hS).1 (ord2 hS).2) core2_ok hS hw hax hz hrep hr (C60_cells_keep_samples_cov h.2 hS)
      h.2.source).elim fun out h' => ⟨tmp, out, h.1, h'.1, h'.2⟩

/-- **C61** Bootstrap by indices and by frequencies agree: with a table of indices, `resample(...,
last=True)` followed by `reduce(axis=-1j)` gives the entries of `resample_and_reduce(..., axes_to_end=True)`
with the frequencies that count the indices, wherever the cells listed have weight. -/
theorem C61_indices_or_frequencies {order : ℕ} {L : (ℕ → ℕ) → List (Sample K)}
    (hS : Stands core1 (Holds order) obj vs [order + 1] L)
    (hw : ∀ i, InBounds vs i → 0 ≤ weight (L i))
    {axis : AxisArg} {ax : ℕ} (ha : NamesAxis (vs.length + 1) 1 axis ax) (hax : ax < vs.length)
    (hz : ∀ a < vs.length, a ≠ ax → vs.getD a 0 ≠ 0) {rows : List (List ℕ)} {nsamp : ℕ}
    (hrep : rows ≠ []) (hrow : ∀ row ∈ rows, row.length = nsamp ∧ ∀ j ∈ row, j < vs.getD ax 0)
    {idx : IdxArr} (he : HasEntries idx [rows.length, nsamp]
      (fun c => (((rows.getD (c.getD 0 0) []).getD (c.getD 1 0) 0 : ℕ) : ℤ))) :
    ∃ tmp out out', ObjectOps.resample 1 obj idx (some axis) true = .ok tmp ∧
      ObjectOps.reduce core1 (kernel1 order) tmp (some (.one (.complex 0 (-1)))) none none false false = .ok out ∧
      ObjectOps.resampleAndReduce core1 (kernel1 order) obj
        (rows.map (fun row => (counts (vs.getD ax 0) row).map Nat.cast)) (vs.getD ax 0) (some axis)
        true = .ok out' ∧
      out.shape = out'.shape ∧
      ∀ i, InBounds ((axesOfResult vs.length ax true).map
          (fun a => if a = ax then rows.length else vs.getD a 0)) i →
        weight ((rows.getD (readAs (axesOfResult vs.length ax true) i ax) []).flatMap (fun j =>
          L (Function.update (readAs (axesOfResult vs.length ax true) i) ax j))) ≠ 0 →
        ∀ m, Within [order + 1] m →
          out.get (atMom vs.length i m) = out'.get (atMom vs.length i m) := by
  have hr : ∀ c, Within [rows.length, nsamp] c → InRange (vs.getD ax 0)
      ((((rows.getD (c.getD 0 0) []).getD (c.getD 1 0) 0 : ℕ) : ℤ)) := by
    intro c hc
    obtain ⟨a, b, rfl, ha, hb⟩ := Select.within_two.1 hc
    obtain ⟨h1, h2⟩ := hrow _ (List.getElem_mem ha)
    refine inRange_natCast (h2 _ ?_)
    show (rows.getD a []).getD b 0 ∈ rows[a]
    rw [List.getD_eq_getElem _ _ ha, List.getD_eq_getElem _ _ (by rw [h1]; exact hb)]
    exact List.getElem_mem _
  obtain ⟨tmp, out, e1, e2, h⟩ := C61_resample_then_reduce hS hw ha hax hz
    (by simpa using hrep) he hr
  have ha' : NamesAxis obj.shape.length 1 axis ax := by rw [hS.object.length]; exact ha
  obtain ⟨out', e3, h'⟩ := C61_resample_indices hS hw ha' hax (idx := rows)
    (fun row hrw => (hrow row hrw).2) true
  obtain ⟨hs, hv⟩ := C61_same_samples (ord1 hS) h h'
  refine ⟨tmp, out, out', e1, e2, e3, hs, fun i hi hne m hm => ?_⟩
  have hb := readAs_bound hi (mem_axesOfResult hax true)
  rw [if_pos rfl] at hb
  obtain ⟨h1, h2⟩ := hrow _ (List.getElem_mem hb)
  have key : (List.range nsamp).flatMap (fun q =>
      L (Function.update (readAs (axesOfResult vs.length ax true) i) ax (wrap (vs.getD ax 0)
        ((((rows.getD (readAs (axesOfResult vs.length ax true) i ax) []).getD q 0 : ℕ) : ℤ)))))
      = (rows.getD (readAs (axesOfResult vs.length ax true) i ax) []).flatMap (fun j =>
          L (Function.update (readAs (axesOfResult vs.length ax true) i) ax j)) := by
    rw [List.getD_eq_getElem _ _ hb, ← flatMap_range_getD _ rows[readAs (axesOfResult vs.length ax true) i ax] 0, h1]
    refine List.flatMap_congr fun q hq => ?_
    rw [wrap_natCast]
    refine h2 _ ?_
    rw [List.getD_eq_getElem _ _ (by rw [h1]; exact List.mem_range.1 hq)]
    exact List.getElem_mem _
  have key2 : (takeAt (samplesAlong L ax (vs.getD ax 0)
        (readAs (axesOfResult vs.length ax true) i))
      (rows.getD (readAs (axesOfResult vs.length ax true) i ax) [])).flatten
      = (rows.getD (readAs (axesOfResult vs.length ax true) i ax) []).flatMap (fun j =>
          L (Function.update (readAs (axesOfResult vs.length ax true) i) ax j)) := by
    unfold samplesAlong
    refine takeAt_along _ _ _ ?_
    rw [List.getD_eq_getElem _ _ hb]
    exact h2
  have hl : ((axesOfResult vs.length ax true).map
      (fun a => if a = ax then rows.length else vs.getD a 0)).length = vs.length := by
    rw [List.length_map, (axesOfResult_perm hax true).length_eq, List.length_range]
  have := hv i hi (by
    beta_reduce
    rw [key2]
    exact .of_eq key) (by
    beta_reduce
    exact fun h0 => hne (by rw [← key]; exact h0)) m hm
  rwa [hl] at this

/-- **C61**, comoments. -/
theorem C61_indices_or_frequencies_cov {o0 o1 : ℕ} {L : (ℕ → ℕ) → List (Sample2 K)}
    (hS : Stands core2 (Holds2 o0 o1) obj vs [o0 + 1, o1 + 1] L)
    (hw : ∀ i, InBounds vs i → 0 ≤ weight2 (L i))
    {axis : AxisArg} {ax : ℕ} (ha : NamesAxis (vs.length + 2) 2 axis ax) (hax : ax < vs.length)
    (hz : ∀ a < vs.length, a ≠ ax → vs.getD a 0 ≠ 0) {rows : List (List ℕ)} {nsamp : ℕ}
    (hrep : rows ≠ []) (hrow : ∀ row ∈ rows, row.length = nsamp ∧ ∀ j ∈ row, j < vs.getD ax 0)
    {idx : IdxArr} (he : HasEntries idx [rows.length, nsamp]
      (fun c => (((rows.getD (c.getD 0 0) []).getD (c.getD 1 0) 0 : ℕ) : ℤ))) :
    ∃ tmp out out', ObjectOps.resample 2 obj idx (some axis) true = .ok tmp ∧
      ObjectOps.reduce core2 (kernel2 o0 o1) tmp (some (.one (.complex 0 (-1)))) none none false false = .ok out ∧
      ObjectOps.resampleAndReduce core2 (kernel2 o0 o1) obj
        (rows.map (fun row => (counts (vs.getD ax 0) row).map Nat.cast)) (vs.getD ax 0) (some axis)
        true = .ok out' ∧
      out.shape = out'.shape ∧
      ∀ i, InBounds ((axesOfResult vs.length ax true).map
          (fun a => if a = ax then rows.length else vs.getD a 0)) i →
        weight2 ((rows.getD (readAs (axesOfResult vs.length ax true) i ax) []).flatMap (fun j =>
          L (Function.update (readAs (axesOfResult vs.length ax true) i) ax j))) ≠ 0 →
        ∀ m, Within [o0 + 1, o1 + 1] m →
          out.get (atMom vs.length i m) = out'.get (atMom vs.length i m) := by
  have hr : ∀ c, Within [rows.length, nsamp] c → InRange (vs.getD ax 0)
      ((((rows.getD (c.getD 0 0) []).getD (c.getD 1 0) 0 : ℕ) : ℤ)) := by
    intro c hc
    obtain ⟨a, b, rfl, ha, hb⟩ := Select.within_two.1 hc
    obtain ⟨h1, h2⟩ := hrow _ (List.getElem_mem ha)
    refine inRange_natCast (h2 _ ?_)
    show (rows.getD a []).getD b 0 ∈ rows[a]
    rw [List.getD_eq_getElem _ _ ha, List.getD_eq_getElem _ _ (by rw [h1]; exact hb)]
    exact List.getElem_mem _
  obtain ⟨tmp, out, e1, e2, h⟩ := C61_resample_then_reduce_cov hS hw ha hax hz
    (by simpa using hrep) he hr
  have ha' : NamesAxis obj.shape.length 2 axis ax := by rw [hS.object.length]; exact ha
  obtain ⟨out', e3, h'⟩ := C61_resample_indices_cov hS hw ha' hax (idx := rows)
    (fun row hrw => (hrow row hrw).2) true
  obtain ⟨hs, hv⟩ := C61_same_samples_cov (ord2 hS).1 (ord2 hS).2 h h'
  refine ⟨tmp, out, out', e1, e2, e3, hs, fun i hi hne m hm => ?_⟩
  have hb := readAs_bound hi (mem_axesOfResult hax true)
  rw [if_pos rfl] at hb
  obtain ⟨h1, h2⟩ := hrow _ (List.getElem_mem hb)
  have key : (List.range nsamp).flatMap (fun q =>
      L (Function.update (readAs (axesOfResult vs.length ax true) i) ax (wrap (vs.getD ax 0)
        ((((rows.getD (readAs (axesOfResult vs.length ax true) i ax) []).getD q 0 : ℕ) : ℤ)))))
      = (rows.getD (readAs (axesOfResult vs.length ax true) i ax) []).flatMap (fun j =>
          L (Function.update (readAs (axesOfResult vs.length ax true) i) ax j)) := by
    rw [List.getD_eq_getElem _ _ hb, ← flatMap_range_getD _ rows[readAs (axesOfResult vs.length ax true) i ax] 0, h1]
    refine List.flatMap_congr fun q hq => ?_
    rw [wrap_natCast]
    refine h2 _ ?_
    rw [List.getD_eq_getElem _ _ (by rw [h1]; exact List.mem_range.1 hq)]
    exact List.getElem_mem _
  have key2 : (takeAt (samplesAlong L ax (vs.getD ax 0)
        (readAs (axesOfResult vs.length ax true) i))
      (rows.getD (readAs (axesOfResult vs.length ax true) i ax) [])).flatten
      = (rows.getD (readAs (axesOfResult vs.length ax true) i ax) []).flatMap (fun j =>
          L (Function.update (readAs (axesOfResult vs.length ax true) i) ax j)) := by
    unfold samplesAlong
    refine takeAt_along _ _ _ ?_
    rw [List.getD_eq_getElem _ _ hb]
    exact h2
  have hl : ((axesOfResult vs.length ax true).map
      (fun a => if a = ax then rows.length else vs.getD a 0)).length = vs.length := by
    rw [List.length_map, (axesOfResult_perm hax true).length_eq, List.length_range]
  have := hv i hi (by
    beta_reduce
    rw [key2]
    exact .of_eq key) (by
    beta_reduce
    exact fun h0 => hne (by rw [← key]; exact h0)) m hm
  rwa [hl] at this

/-- Rows `[0, 0]`, `[1, 0]`, `[1, 1]`. -/
def exCollIdx : IdxArr := ⟨[3, 2], [0, 0, 1, 0, 1, 1]⟩

theorem exCollIdx_entries : HasEntries exCollIdx [([[0, 0], [1, 0], [1, 1]] : List (List ℕ)).length, 2]
    (fun c => ((([[0, 0], [1, 0], [1, 1]].getD (c.getD 0 0) []).getD (c.getD 1 0) 0 : ℕ) : ℤ)) where
  shape := rfl
  vals := by decide +kernel

example := C61_indices_or_frequencies exStat_object.stands exStat_nonneg (axis := .int 0) (ax := 0)
  (by simp [NamesAxis, InRange, wrap]) (by simp) (by simp) (rows := [[0, 0], [1, 0], [1, 1]])
  (nsamp := 2) (by simp) (by simp) exCollIdx_entries
example := C61_indices_or_frequencies_cov exColl2_stands exColl2_nonneg (axis := .int 0) (ax := 0)
  (by simp [NamesAxis, InRange, wrap]) (by simp) (by simp) (rows := [[0, 0], [1, 0], [1, 1]])
  (nsamp := 2) (by simp) (by simp) exCollIdx_entries

end Collect

end Cmomy
