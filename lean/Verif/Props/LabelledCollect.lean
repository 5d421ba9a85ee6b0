import Verif.Lemmas.LabelledCollect
import Verif.Props.LabelledObject

/-!
# C66: collecting the samples of labelled objects

An object is its labelled array with the names of its moment dimensions. `StandsNamed core H obj moms L`:
the cell at the coordinates `c` stands for the samples `L c`. `ResultNamed core H out moms dims size L`:
the array `out` has the dimensions `dims` of the given sizes, nothing is missing, and its cells stand for
the samples `L c`. The kernel is the one for the sizes of the moment dimensions.
-/

set_option linter.unusedSectionVars false

namespace Cmomy

open Spec Axes Labelled
open Nd (core1 core2 core1_ok core2_ok family1 family2)

section Methods

variable {δ : Type} [DecidableEq δ] {K : Type} [Field K] [LinearOrder K] [IsStrictOrderedRing K]
  {obj : DataArray δ K}

theorem family1_eq {n order : ℕ} (h : n = order + 1) : family1 [n] = kernel1 (K := K) order := by
  simp [family1, h]

theorem family2_eq {n0 n1 o0 o1 : ℕ} (h0 : n0 = o0 + 1) (h1 : n1 = o1 + 1) :
    family2 [n0, n1] = kernel2 (K := K) o0 o1 := by
  simp [family2, h0, h1]

/-- **C66** `obj.reduce(dim)` over one dimension, several, or all of them: the other dimensions keep their order
(with `keepdims` the reduced ones stay with size one), and each new cell stands for all samples behind the
cells it replaces. `axes_to_end` has no effect. -/
theorem C66_reduce {order : ℕ} (ho : 1 ≤ order) {md : δ} (hm : obj.size md = order + 1)
    {L : (δ → ℕ) → List (Sample K)} (hS : StandsNamed core1 (Holds order) obj [md] L)
    (hw : ∀ c, InLabelled obj [md] c → 0 ≤ weight (L c))
    (argsort : List ℤ → List ℕ) {axis : Option AxesArg} {dim : Option (Option (List δ))} {ds : List δ}
    (hsel : ChosenMany obj.dims [md] axis dim ds) (hne : ds ≠ []) (hnd : ds.Nodup)
    (hv : ∀ d ∈ ds, d ∈ valDims obj [md]) (hz : ∀ d ∈ obj.dims, d ∉ ds → obj.size d ≠ 0)
    (byFirst : Bool) (groupDim : Option δ) (keepdims axesToEnd : Bool) :
    ∃ out, reduceObjX core1 (family1 [obj.size md]) argsort obj [md] axis dim none none byFirst groupDim
        keepdims axesToEnd = .ok out ∧
      ResultNamed core1 (Holds order) out [md] (dimsReduced obj.dims ds [md] keepdims false)
        (fun d => if d ∈ ds then 1 else obj.size d) (samplesOverNames L obj.size ds) := by
  rw [family1_eq hm]
  exact Meaning.reduce_named (meaning1 (K := K) order ho) core1_ok hS hw argsort hsel hne hnd hv hz byFirst groupDim keepdims axesToEnd

/-- **C66**, comoments. -/
theorem C66_reduce_cov {o0 o1 : ℕ} (h0 : 1 ≤ o0) (h1 : 1 ≤ o1) {m0 m1 : δ}
    (hm0 : obj.size m0 = o0 + 1) (hm1 : obj.size m1 = o1 + 1)
    {L : (δ → ℕ) → List (Sample2 K)} (hS : StandsNamed core2 (Holds2 o0 o1) obj [m0, m1] L)
    (hw : ∀ c, InLabelled obj [m0, m1] c → 0 ≤ weight2 (L c))
    (argsort : List ℤ → List ℕ) {axis : Option AxesArg} {dim : Option (Option (List δ))} {ds : List δ}
    (hsel : ChosenMany obj.dims [m0, m1] axis dim ds) (hne : ds ≠ []) (hnd : ds.Nodup)
    (hv : ∀ d ∈ ds, d ∈ valDims obj [m0, m1]) (hz : ∀ d ∈ obj.dims, d ∉ ds → obj.size d ≠ 0)
    (byFirst : Bool) (groupDim : Option δ) (keepdims axesToEnd : Bool) :
    ∃ out, reduceObjX core2 (family2 [obj.size m0, obj.size m1]) argsort obj [m0, m1] axis dim none none byFirst groupDim
        keepdims axesToEnd = .ok out ∧
      ResultNamed core2 (Holds2 o0 o1) out [m0, m1] (dimsReduced obj.dims ds [m0, m1] keepdims false)
        (fun d => if d ∈ ds then 1 else obj.size d) (samplesOverNames L obj.size ds) := by
  rw [family2_eq hm0 hm1]
  exact Meaning.reduce_named (meaning2 (K := K) o0 o1 h0 h1) core2_ok hS hw argsort hsel hne hnd hv hz byFirst groupDim keepdims axesToEnd

/-- **C66** `obj.reduce(dim, by=labels)` with the default `coords_policy` (`"first"`) or `"last"`: the groups are
the labels that occur, missing and negative ones left out, in increasing order; the cell of a group stands
for the samples of the cells with its label. Labels for fewer cells than there are, or for more if these are
missing or negative, are taken as well. `block` and `keepdims` have no effect. -/
theorem C66_reduce_by {order : ℕ} (ho : 1 ≤ order) {md : δ} (hm : obj.size md = order + 1)
    {L : (δ → ℕ) → List (Sample K)} (hS : StandsNamed core1 (Holds order) obj [md] L)
    (hw : ∀ c, InLabelled obj [md] c → 0 ≤ weight (L c))
    {argsort : List ℤ → List ℕ} (ha : IsArgsort argsort)
    {axis : Option (Option AxisArg)} {dim : Option (Option δ)} {d : δ}
    (hsel : Chosen obj.dims [md] axis dim d) (hd : d ∈ valDims obj [md])
    {labels : List (Option ℤ)} {gs : List ℤ} (hg : GroupsOf labels gs)
    (hl : LabelsWithin labels (obj.size d)) (block : Option ℤ)
    {groupDim : Option δ} (hgr : ∀ n, groupDim = some n → n = d ∨ n ∉ obj.dims)
    (keepdims axesToEnd : Bool) :
    ∃ out, reduceObjX core1 (family1 [obj.size md]) argsort obj [md] (oneAxis axis) (oneDim dim)
        (some labels) block true groupDim keepdims axesToEnd = .ok out ∧
      ResultNamed core1 (Holds order) out [md]
        (renamed (dimsAfter obj.dims d [md] axesToEnd) d (groupDim.getD d))
        (sizesWith obj (groupDim.getD d) gs.length)
        (fun c => (withLabel (gs.getD (c (groupDim.getD d)) 0) labels
          (samplesAlongName L d (obj.size d) c)).flatten) := by
  rw [family1_eq hm]
  exact Meaning.by_named (meaning1 (K := K) order ho) core1_ok hS hw ha hsel hd hg hl block hgr keepdims axesToEnd

/-- **C66**, comoments. -/
theorem C66_reduce_by_cov {o0 o1 : ℕ} (h0 : 1 ≤ o0) (h1 : 1 ≤ o1) {m0 m1 : δ}
    (hm0 : obj.size m0 = o0 + 1) (hm1 : obj.size m1 = o1 + 1)
    {L : (δ → ℕ) → List (Sample2 K)} (hS : StandsNamed core2 (Holds2 o0 o1) obj [m0, m1] L)
    (hw : ∀ c, InLabelled obj [m0, m1] c → 0 ≤ weight2 (L c))
    {argsort : List ℤ → List ℕ} (ha : IsArgsort argsort)
    {axis : Option (Option AxisArg)} {dim : Option (Option δ)} {d : δ}
    (hsel : Chosen obj.dims [m0, m1] axis dim d) (hd : d ∈ valDims obj [m0, m1])
    {labels : List (Option ℤ)} {gs : List ℤ} (hg : GroupsOf labels gs)
    (hl : LabelsWithin labels (obj.size d)) (block : Option ℤ)
    {groupDim : Option δ} (hgr : ∀ n, groupDim = some n → n = d ∨ n ∉ obj.dims)
    (keepdims axesToEnd : Bool) :
    ∃ out, reduceObjX core2 (family2 [obj.size m0, obj.size m1]) argsort obj [m0, m1] (oneAxis axis) (oneDim dim)
        (some labels) block true groupDim keepdims axesToEnd = .ok out ∧
      ResultNamed core2 (Holds2 o0 o1) out [m0, m1]
        (renamed (dimsAfter obj.dims d [m0, m1] axesToEnd) d (groupDim.getD d))
        (sizesWith obj (groupDim.getD d) gs.length)
        (fun c => (withLabel (gs.getD (c (groupDim.getD d)) 0) labels
          (samplesAlongName L d (obj.size d) c)).flatten) := by
  rw [family2_eq hm0 hm1]
  exact Meaning.by_named (meaning2 (K := K) o0 o1 h0 h1) core2_ok hS hw ha hsel hd hg hl block hgr keepdims axesToEnd

/-- **C66** A label, neither missing nor negative, at a position after the end of the dimension is refused. -/
theorem C66_reduce_by_refused {order : ℕ} (ho : 1 ≤ order) {md : δ} (hm : obj.size md = order + 1)
    {L : (δ → ℕ) → List (Sample K)} (hS : StandsNamed core1 (Holds order) obj [md] L)
    {argsort : List ℤ → List ℕ} (ha : IsArgsort argsort)
    {axis : Option (Option AxisArg)} {dim : Option (Option δ)} {d : δ}
    (hsel : Chosen obj.dims [md] axis dim d) (hd : d ∈ valDims obj [md])
    {labels : List (Option ℤ)} (hl : ¬ LabelsWithin labels (obj.size d)) (block : Option ℤ)
    {groupDim : Option δ} (hgr : ∀ n, groupDim = some n → n = d ∨ n ∉ obj.dims)
    (keepdims axesToEnd : Bool) :
    reduceObjX core1 (family1 [obj.size md]) argsort obj [md] (oneAxis axis) (oneDim dim)
        (some labels) block true groupDim keepdims axesToEnd = .error .valueError := by
  rw [family1_eq hm]
  exact by_refused hS core1_ok (kernel1 order) ha hsel hd hl block hgr keepdims axesToEnd

/-- **C66**, comoments. -/
theorem C66_reduce_by_refused_cov {o0 o1 : ℕ} (h0 : 1 ≤ o0) (h1 : 1 ≤ o1) {m0 m1 : δ}
    (hm0 : obj.size m0 = o0 + 1) (hm1 : obj.size m1 = o1 + 1)
    {L : (δ → ℕ) → List (Sample2 K)} (hS : StandsNamed core2 (Holds2 o0 o1) obj [m0, m1] L)
    {argsort : List ℤ → List ℕ} (ha : IsArgsort argsort)
    {axis : Option (Option AxisArg)} {dim : Option (Option δ)} {d : δ}
    (hsel : Chosen obj.dims [m0, m1] axis dim d) (hd : d ∈ valDims obj [m0, m1])
    {labels : List (Option ℤ)} (hl : ¬ LabelsWithin labels (obj.size d)) (block : Option ℤ)
    {groupDim : Option δ} (hgr : ∀ n, groupDim = some n → n = d ∨ n ∉ obj.dims)
    (keepdims axesToEnd : Bool) :
    reduceObjX core2 (family2 [obj.size m0, obj.size m1]) argsort obj [m0, m1] (oneAxis axis) (oneDim dim)
        (some labels) block true groupDim keepdims axesToEnd = .error .valueError := by
  rw [family2_eq hm0 hm1]
  exact by_refused hS core2_ok (kernel2 o0 o1) ha hsel hd hl block hgr keepdims axesToEnd

/-- **C66** `obj.reduce(dim, by=labels)` with any other `coords_policy`: the labels are group numbers, one for each
cell; there is a place for each number from zero up to the highest label `m`, and that of group `g` stands for
the samples of the cells labelled `g`, if any. -/
theorem C66_reduce_by_code {order : ℕ} (ho : 1 ≤ order) {md : δ} (hm : obj.size md = order + 1)
    {L : (δ → ℕ) → List (Sample K)} (hS : StandsNamed core1 (Holds order) obj [md] L)
    (hw : ∀ c, InLabelled obj [md] c → 0 ≤ weight (L c))
    (argsort : List ℤ → List ℕ)
    {axis : Option (Option AxisArg)} {dim : Option (Option δ)} {d : δ}
    (hsel : Chosen obj.dims [md] axis dim d) (hd : d ∈ valDims obj [md])
    {by_ : List ℤ} {m : ℤ} (hl : by_.length = obj.size d) (hmem : m ∈ by_)
    (hmax : ∀ l ∈ by_, l ≤ m) (hlow : -1 ≤ m) (block : Option ℤ)
    {groupDim : Option δ} (hgr : ∀ n, groupDim = some n → n = d ∨ n ∉ obj.dims)
    (keepdims axesToEnd : Bool) :
    ∃ out, reduceObjX core1 (family1 [obj.size md]) argsort obj [md] (oneAxis axis) (oneDim dim)
        (some (by_.map some)) block false groupDim keepdims axesToEnd = .ok out ∧
      ResultNamed core1 (Holds order) out [md]
        (renamed (dimsAfter obj.dims d [md] axesToEnd) d (groupDim.getD d))
        (sizesWith obj (groupDim.getD d) (m + 1).toNat)
        (fun c => (groupRows (c (groupDim.getD d)) by_ (samplesAlongName L d (obj.size d) c)).flatten) := by
  rw [family1_eq hm]
  exact Meaning.code_named (meaning1 (K := K) order ho) core1_ok hS hw argsort hsel hd hl hmem hmax hlow block hgr keepdims axesToEnd

/-- **C66**, comoments. -/
theorem C66_reduce_by_code_cov {o0 o1 : ℕ} (h0 : 1 ≤ o0) (h1 : 1 ≤ o1) {m0 m1 : δ}
    (hm0 : obj.size m0 = o0 + 1) (hm1 : obj.size m1 = o1 + 1)
    {L : (δ → ℕ) → List (Sample2 K)} (hS : StandsNamed core2 (Holds2 o0 o1) obj [m0, m1] L)
    (hw : ∀ c, InLabelled obj [m0, m1] c → 0 ≤ weight2 (L c))
    (argsort : List ℤ → List ℕ)
    {axis : Option (Option AxisArg)} {dim : Option (Option δ)} {d : δ}
    (hsel : Chosen obj.dims [m0, m1] axis dim d) (hd : d ∈ valDims obj [m0, m1])
    {by_ : List ℤ} {m : ℤ} (hl : by_.length = obj.size d) (hmem : m ∈ by_)
    (hmax : ∀ l ∈ by_, l ≤ m) (hlow : -1 ≤ m) (block : Option ℤ)
    {groupDim : Option δ} (hgr : ∀ n, groupDim = some n → n = d ∨ n ∉ obj.dims)
    (keepdims axesToEnd : Bool) :
    ∃ out, reduceObjX core2 (family2 [obj.size m0, obj.size m1]) argsort obj [m0, m1] (oneAxis axis) (oneDim dim)
        (some (by_.map some)) block false groupDim keepdims axesToEnd = .ok out ∧
      ResultNamed core2 (Holds2 o0 o1) out [m0, m1]
        (renamed (dimsAfter obj.dims d [m0, m1] axesToEnd) d (groupDim.getD d))
        (sizesWith obj (groupDim.getD d) (m + 1).toNat)
        (fun c => (groupRows (c (groupDim.getD d)) by_ (samplesAlongName L d (obj.size d) c)).flatten) := by
  rw [family2_eq hm0 hm1]
  exact Meaning.code_named (meaning2 (K := K) o0 o1 h0 h1) core2_ok hS hw argsort hsel hd hl hmem hmax hlow block hgr keepdims axesToEnd

/-- **C66** These policies refuse labels that are not one for each cell, and labels that are all below `-1`. -/
theorem C66_reduce_by_code_refused {order : ℕ} (ho : 1 ≤ order) {md : δ} (hm : obj.size md = order + 1)
    {L : (δ → ℕ) → List (Sample K)} (hS : StandsNamed core1 (Holds order) obj [md] L)
    (argsort : List ℤ → List ℕ)
    {axis : Option (Option AxisArg)} {dim : Option (Option δ)} {d : δ}
    (hsel : Chosen obj.dims [md] axis dim d) (hd : d ∈ valDims obj [md])
    {by_ : List ℤ} (h : by_.length ≠ obj.size d ∨ ∀ l ∈ by_, l < -1) (block : Option ℤ)
    {groupDim : Option δ} (hgr : ∀ n, groupDim = some n → n = d ∨ n ∉ obj.dims)
    (keepdims axesToEnd : Bool) :
    reduceObjX core1 (family1 [obj.size md]) argsort obj [md] (oneAxis axis) (oneDim dim)
        (some (by_.map some)) block false groupDim keepdims axesToEnd = .error .valueError := by
  rw [family1_eq hm]
  exact code_refused hS core1_ok (kernel1 order) argsort hsel hd h block hgr keepdims axesToEnd

/-- **C66**, comoments. -/
theorem C66_reduce_by_code_refused_cov {o0 o1 : ℕ} (h0 : 1 ≤ o0) (h1 : 1 ≤ o1) {m0 m1 : δ}
    (hm0 : obj.size m0 = o0 + 1) (hm1 : obj.size m1 = o1 + 1)
    {L : (δ → ℕ) → List (Sample2 K)} (hS : StandsNamed core2 (Holds2 o0 o1) obj [m0, m1] L)
    (argsort : List ℤ → List ℕ)
    {axis : Option (Option AxisArg)} {dim : Option (Option δ)} {d : δ}
    (hsel : Chosen obj.dims [m0, m1] axis dim d) (hd : d ∈ valDims obj [m0, m1])
    {by_ : List ℤ} (h : by_.length ≠ obj.size d ∨ ∀ l ∈ by_, l < -1) (block : Option ℤ)
    {groupDim : Option δ} (hgr : ∀ n, groupDim = some n → n = d ∨ n ∉ obj.dims)
    (keepdims axesToEnd : Bool) :
    reduceObjX core2 (family2 [obj.size m0, obj.size m1]) argsort obj [m0, m1] (oneAxis axis) (oneDim dim)
        (some (by_.map some)) block false groupDim keepdims axesToEnd = .error .valueError := by
  rw [family2_eq hm0 hm1]
  exact code_refused hS core2_ok (kernel2 o0 o1) argsort hsel hd h block hgr keepdims axesToEnd

/-- **C66** With one label for each cell, and all numbers from `0` to `n - 1` among the labels but none above, the
policies make no difference. -/
theorem C66_reduce_by_all {order : ℕ} (ho : 1 ≤ order) {md : δ} (hm : obj.size md = order + 1)
    {L : (δ → ℕ) → List (Sample K)} (hS : StandsNamed core1 (Holds order) obj [md] L)
    (hw : ∀ c, InLabelled obj [md] c → 0 ≤ weight (L c))
    {argsort : List ℤ → List ℕ} (ha : IsArgsort argsort)
    {axis : Option (Option AxisArg)} {dim : Option (Option δ)} {d : δ}
    (hsel : Chosen obj.dims [md] axis dim d) (hd : d ∈ valDims obj [md])
    {by_ : List ℤ} {n : ℕ} (hl : by_.length = obj.size d) (hn : 0 < n)
    (hall : ∀ z : ℤ, 0 ≤ z → (z ∈ by_ ↔ z < n)) (block : Option ℤ) (byFirst : Bool)
    {groupDim : Option δ} (hgr : ∀ n, groupDim = some n → n = d ∨ n ∉ obj.dims)
    (keepdims axesToEnd : Bool) :
    ∃ out, reduceObjX core1 (family1 [obj.size md]) argsort obj [md] (oneAxis axis) (oneDim dim)
        (some (by_.map some)) block byFirst groupDim keepdims axesToEnd = .ok out ∧
      ResultNamed core1 (Holds order) out [md]
        (renamed (dimsAfter obj.dims d [md] axesToEnd) d (groupDim.getD d))
        (sizesWith obj (groupDim.getD d) n)
        (fun c => (groupRows (c (groupDim.getD d)) by_ (samplesAlongName L d (obj.size d) c)).flatten) := by
  rw [family1_eq hm]
  exact Meaning.both_named (meaning1 (K := K) order ho) core1_ok hS hw ha hsel hd hl hn hall block byFirst hgr keepdims axesToEnd

/-- **C66**, comoments. -/
theorem C66_reduce_by_all_cov {o0 o1 : ℕ} (h0 : 1 ≤ o0) (h1 : 1 ≤ o1) {m0 m1 : δ}
    (hm0 : obj.size m0 = o0 + 1) (hm1 : obj.size m1 = o1 + 1)
    {L : (δ → ℕ) → List (Sample2 K)} (hS : StandsNamed core2 (Holds2 o0 o1) obj [m0, m1] L)
    (hw : ∀ c, InLabelled obj [m0, m1] c → 0 ≤ weight2 (L c))
    {argsort : List ℤ → List ℕ} (ha : IsArgsort argsort)
    {axis : Option (Option AxisArg)} {dim : Option (Option δ)} {d : δ}
    (hsel : Chosen obj.dims [m0, m1] axis dim d) (hd : d ∈ valDims obj [m0, m1])
    {by_ : List ℤ} {n : ℕ} (hl : by_.length = obj.size d) (hn : 0 < n)
    (hall : ∀ z : ℤ, 0 ≤ z → (z ∈ by_ ↔ z < n)) (block : Option ℤ) (byFirst : Bool)
    {groupDim : Option δ} (hgr : ∀ n, groupDim = some n → n = d ∨ n ∉ obj.dims)
    (keepdims axesToEnd : Bool) :
    ∃ out, reduceObjX core2 (family2 [obj.size m0, obj.size m1]) argsort obj [m0, m1] (oneAxis axis) (oneDim dim)
        (some (by_.map some)) block byFirst groupDim keepdims axesToEnd = .ok out ∧
      ResultNamed core2 (Holds2 o0 o1) out [m0, m1]
        (renamed (dimsAfter obj.dims d [m0, m1] axesToEnd) d (groupDim.getD d))
        (sizesWith obj (groupDim.getD d) n)
        (fun c => (groupRows (c (groupDim.getD d)) by_ (samplesAlongName L d (obj.size d) c)).flatten) := by
  rw [family2_eq hm0 hm1]
  exact Meaning.both_named (meaning2 (K := K) o0 o1 h0 h1) core2_ok hS hw ha hsel hd hl hn hall block byFirst hgr keepdims axesToEnd

/-- **C66** `obj.reduce(dim, block=b)` with `b` between one and the size of the dimension: there is one place for each
of the `size // b` whole blocks, and block `j` stands for the samples of the `b` cells from `b * j` on; cells
after the last whole block are left out. -/
theorem C66_reduce_block {order : ℕ} (ho : 1 ≤ order) {md : δ} (hm : obj.size md = order + 1)
    {L : (δ → ℕ) → List (Sample K)} (hS : StandsNamed core1 (Holds order) obj [md] L)
    (hw : ∀ c, InLabelled obj [md] c → 0 ≤ weight (L c))
    {argsort : List ℤ → List ℕ} (ha : IsArgsort argsort)
    {axis : Option (Option AxisArg)} {dim : Option (Option δ)} {d : δ}
    (hsel : Chosen obj.dims [md] axis dim d) (hd : d ∈ valDims obj [md])
    {b : ℕ} (hb : 1 ≤ b) (hbs : b ≤ obj.size d) (byFirst : Bool)
    {groupDim : Option δ} (hgr : ∀ n, groupDim = some n → n = d ∨ n ∉ obj.dims)
    (keepdims axesToEnd : Bool) :
    ∃ out, reduceObjX core1 (family1 [obj.size md]) argsort obj [md] (oneAxis axis) (oneDim dim) none
        (some (b : ℤ)) byFirst groupDim keepdims axesToEnd = .ok out ∧
      ResultNamed core1 (Holds order) out [md]
        (renamed (dimsAfter obj.dims d [md] axesToEnd) d (groupDim.getD d))
        (sizesWith obj (groupDim.getD d) (obj.size d / b))
        (fun c => (slice (samplesAlongName L d (obj.size d) c) (b * c (groupDim.getD d))
          (b * (c (groupDim.getD d) + 1))).flatten) := by
  rw [family1_eq hm]
  exact Meaning.block_named (meaning1 (K := K) order ho) core1_ok hS hw ha hsel hd hb hbs byFirst hgr keepdims axesToEnd

/-- **C66**, comoments. -/
theorem C66_reduce_block_cov {o0 o1 : ℕ} (h0 : 1 ≤ o0) (h1 : 1 ≤ o1) {m0 m1 : δ}
    (hm0 : obj.size m0 = o0 + 1) (hm1 : obj.size m1 = o1 + 1)
    {L : (δ → ℕ) → List (Sample2 K)} (hS : StandsNamed core2 (Holds2 o0 o1) obj [m0, m1] L)
    (hw : ∀ c, InLabelled obj [m0, m1] c → 0 ≤ weight2 (L c))
    {argsort : List ℤ → List ℕ} (ha : IsArgsort argsort)
    {axis : Option (Option AxisArg)} {dim : Option (Option δ)} {d : δ}
    (hsel : Chosen obj.dims [m0, m1] axis dim d) (hd : d ∈ valDims obj [m0, m1])
    {b : ℕ} (hb : 1 ≤ b) (hbs : b ≤ obj.size d) (byFirst : Bool)
    {groupDim : Option δ} (hgr : ∀ n, groupDim = some n → n = d ∨ n ∉ obj.dims)
    (keepdims axesToEnd : Bool) :
    ∃ out, reduceObjX core2 (family2 [obj.size m0, obj.size m1]) argsort obj [m0, m1] (oneAxis axis) (oneDim dim) none
        (some (b : ℤ)) byFirst groupDim keepdims axesToEnd = .ok out ∧
      ResultNamed core2 (Holds2 o0 o1) out [m0, m1]
        (renamed (dimsAfter obj.dims d [m0, m1] axesToEnd) d (groupDim.getD d))
        (sizesWith obj (groupDim.getD d) (obj.size d / b))
        (fun c => (slice (samplesAlongName L d (obj.size d) c) (b * c (groupDim.getD d))
          (b * (c (groupDim.getD d) + 1))).flatten) := by
  rw [family2_eq hm0 hm1]
  exact Meaning.block_named (meaning2 (K := K) o0 o1 h0 h1) core2_ok hS hw ha hsel hd hb hbs byFirst hgr keepdims axesToEnd

/-- **C66** `obj.reduce(dim, block=b)` with `b` zero or negative: one block of all cells. -/
theorem C66_reduce_one_block {order : ℕ} (ho : 1 ≤ order) {md : δ} (hm : obj.size md = order + 1)
    {L : (δ → ℕ) → List (Sample K)} (hS : StandsNamed core1 (Holds order) obj [md] L)
    (hw : ∀ c, InLabelled obj [md] c → 0 ≤ weight (L c))
    {argsort : List ℤ → List ℕ} (ha : IsArgsort argsort)
    {axis : Option (Option AxisArg)} {dim : Option (Option δ)} {d : δ}
    (hsel : Chosen obj.dims [md] axis dim d) (hd : d ∈ valDims obj [md])
    {b : ℤ} (hb : b ≤ 0) (hbs : obj.size d ≠ 0) (byFirst : Bool)
    {groupDim : Option δ} (hgr : ∀ n, groupDim = some n → n = d ∨ n ∉ obj.dims)
    (keepdims axesToEnd : Bool) :
    ∃ out, reduceObjX core1 (family1 [obj.size md]) argsort obj [md] (oneAxis axis) (oneDim dim) none
        (some b) byFirst groupDim keepdims axesToEnd = .ok out ∧
      ResultNamed core1 (Holds order) out [md]
        (renamed (dimsAfter obj.dims d [md] axesToEnd) d (groupDim.getD d))
        (sizesWith obj (groupDim.getD d) 1) (fun c => (samplesAlongName L d (obj.size d) c).flatten) := by
  rw [family1_eq hm]
  exact Meaning.one_block_named (meaning1 (K := K) order ho) core1_ok hS hw ha hsel hd hb hbs byFirst hgr keepdims axesToEnd

/-- **C66**, comoments. -/
theorem C66_reduce_one_block_cov {o0 o1 : ℕ} (h0 : 1 ≤ o0) (h1 : 1 ≤ o1) {m0 m1 : δ}
    (hm0 : obj.size m0 = o0 + 1) (hm1 : obj.size m1 = o1 + 1)
    {L : (δ → ℕ) → List (Sample2 K)} (hS : StandsNamed core2 (Holds2 o0 o1) obj [m0, m1] L)
    (hw : ∀ c, InLabelled obj [m0, m1] c → 0 ≤ weight2 (L c))
    {argsort : List ℤ → List ℕ} (ha : IsArgsort argsort)
    {axis : Option (Option AxisArg)} {dim : Option (Option δ)} {d : δ}
    (hsel : Chosen obj.dims [m0, m1] axis dim d) (hd : d ∈ valDims obj [m0, m1])
    {b : ℤ} (hb : b ≤ 0) (hbs : obj.size d ≠ 0) (byFirst : Bool)
    {groupDim : Option δ} (hgr : ∀ n, groupDim = some n → n = d ∨ n ∉ obj.dims)
    (keepdims axesToEnd : Bool) :
    ∃ out, reduceObjX core2 (family2 [obj.size m0, obj.size m1]) argsort obj [m0, m1] (oneAxis axis) (oneDim dim) none
        (some b) byFirst groupDim keepdims axesToEnd = .ok out ∧
      ResultNamed core2 (Holds2 o0 o1) out [m0, m1]
        (renamed (dimsAfter obj.dims d [m0, m1] axesToEnd) d (groupDim.getD d))
        (sizesWith obj (groupDim.getD d) 1) (fun c => (samplesAlongName L d (obj.size d) c).flatten) := by
  rw [family2_eq hm0 hm1]
  exact Meaning.one_block_named (meaning2 (K := K) o0 o1 h0 h1) core2_ok hS hw ha hsel hd hb hbs byFirst hgr keepdims axesToEnd

/-- **C66** A block longer than the dimension is refused, and any block of an empty dimension. -/
theorem C66_block_refused {order : ℕ} (ho : 1 ≤ order) {md : δ} (hm : obj.size md = order + 1)
    {L : (δ → ℕ) → List (Sample K)} (hS : StandsNamed core1 (Holds order) obj [md] L)
    (argsort : List ℤ → List ℕ)
    {axis : Option (Option AxisArg)} {dim : Option (Option δ)} {d : δ}
    (hsel : Chosen obj.dims [md] axis dim d) (hd : d ∈ valDims obj [md])
    {b : ℤ} (h : obj.size d = 0 ∨ (obj.size d : ℤ) < b) (byFirst : Bool) (groupDim : Option δ)
    (keepdims axesToEnd : Bool) :
    reduceObjX core1 (family1 [obj.size md]) argsort obj [md] (oneAxis axis) (oneDim dim) none
        (some b) byFirst groupDim keepdims axesToEnd = .error .valueError := by
  rw [family1_eq hm]
  exact block_refused hS (kernel1 order) argsort hsel hd h byFirst groupDim keepdims axesToEnd

/-- **C66**, comoments. -/
theorem C66_block_refused_cov {o0 o1 : ℕ} (h0 : 1 ≤ o0) (h1 : 1 ≤ o1) {m0 m1 : δ}
    (hm0 : obj.size m0 = o0 + 1) (hm1 : obj.size m1 = o1 + 1)
    {L : (δ → ℕ) → List (Sample2 K)} (hS : StandsNamed core2 (Holds2 o0 o1) obj [m0, m1] L)
    (argsort : List ℤ → List ℕ)
    {axis : Option (Option AxisArg)} {dim : Option (Option δ)} {d : δ}
    (hsel : Chosen obj.dims [m0, m1] axis dim d) (hd : d ∈ valDims obj [m0, m1])
    {b : ℤ} (h : obj.size d = 0 ∨ (obj.size d : ℤ) < b) (byFirst : Bool) (groupDim : Option δ)
    (keepdims axesToEnd : Bool) :
    reduceObjX core2 (family2 [obj.size m0, obj.size m1]) argsort obj [m0, m1] (oneAxis axis) (oneDim dim) none
        (some b) byFirst groupDim keepdims axesToEnd = .error .valueError := by
  rw [family2_eq hm0 hm1]
  exact block_refused hS (kernel2 o0 o1) argsort hsel hd h byFirst groupDim keepdims axesToEnd

/-- **C66** `obj.cumulative(dim)`: the cell at place `j` stands for the samples of the places up to and including
`j`. -/
theorem C66_cumulative {order : ℕ} (ho : 1 ≤ order) {md : δ} (hm : obj.size md = order + 1)
    {L : (δ → ℕ) → List (Sample K)} (hS : StandsNamed core1 (Holds order) obj [md] L)
    (hw : ∀ c, InLabelled obj [md] c → 0 ≤ weight (L c))
    {axis : Option (Option AxisArg)} {dim : Option (Option δ)} {d : δ}
    (hsel : Chosen obj.dims [md] axis dim d) (hd : d ∈ valDims obj [md])
    (axesToEnd : Bool) :
    ∃ out, cumulativeObjX core1 (family1 [obj.size md]) obj [md] axis dim axesToEnd = .ok out ∧
      ResultNamed core1 (Holds order) out [md] (dimsAfter obj.dims d [md] axesToEnd) obj.size
        (fun c => ((samplesAlongName L d (obj.size d) c).take (c d + 1)).flatten) := by
  rw [family1_eq hm]
  exact Meaning.cumulative_named (meaning1 (K := K) order ho) core1_ok hS hw hsel hd axesToEnd

/-- **C66**, comoments. -/
theorem C66_cumulative_cov {o0 o1 : ℕ} (h0 : 1 ≤ o0) (h1 : 1 ≤ o1) {m0 m1 : δ}
    (hm0 : obj.size m0 = o0 + 1) (hm1 : obj.size m1 = o1 + 1)
    {L : (δ → ℕ) → List (Sample2 K)} (hS : StandsNamed core2 (Holds2 o0 o1) obj [m0, m1] L)
    (hw : ∀ c, InLabelled obj [m0, m1] c → 0 ≤ weight2 (L c))
    {axis : Option (Option AxisArg)} {dim : Option (Option δ)} {d : δ}
    (hsel : Chosen obj.dims [m0, m1] axis dim d) (hd : d ∈ valDims obj [m0, m1])
    (axesToEnd : Bool) :
    ∃ out, cumulativeObjX core2 (family2 [obj.size m0, obj.size m1]) obj [m0, m1] axis dim axesToEnd = .ok out ∧
      ResultNamed core2 (Holds2 o0 o1) out [m0, m1] (dimsAfter obj.dims d [m0, m1] axesToEnd) obj.size
        (fun c => ((samplesAlongName L d (obj.size d) c).take (c d + 1)).flatten) := by
  rw [family2_eq hm0 hm1]
  exact Meaning.cumulative_named (meaning2 (K := K) o0 o1 h0 h1) core2_ok hS hw hsel hd axesToEnd

/-- **C66** `obj.resample_and_reduce(sampler, dim, rep_dim)` with a table of frequencies: replicate `r` stands for
all samples, those of place `j` with their weight multiplied by the frequency in row `r` and column `j`. -/
theorem C66_resample {order : ℕ} (ho : 1 ≤ order) {md : δ} (hm : obj.size md = order + 1)
    {L : (δ → ℕ) → List (Sample K)} (hS : StandsNamed core1 (Holds order) obj [md] L)
    (hw : ∀ c, InLabelled obj [md] c → 0 ≤ weight (L c))
    {axis : Option (Option AxisArg)} {dim : Option (Option δ)} {d : δ}
    (hsel : Chosen obj.dims [md] axis dim d) (hd : d ∈ valDims obj [md])
    {rep : δ} (hrep : rep ∉ obj.dims) {freq : List (List K)} (hf : ∀ fs ∈ freq, ∀ f ∈ fs, 0 ≤ f)
    (axesToEnd : Bool) :
    ∃ out, resampleAndReduceX core1 (family1 [obj.size md]) obj [md] freq (obj.size d) axis dim rep axesToEnd
        = .ok out ∧
      ResultNamed core1 (Holds order) out [md] (renamed (dimsAfter obj.dims d [md] axesToEnd) d rep)
        (sizesWith obj rep freq.length)
        (fun c => ((freq.getD (c rep) []).zip (samplesAlongName L d (obj.size d) c)).flatMap
          (fun p => p.2.map (reweighted p.1))) := by
  rw [family1_eq hm]
  exact Meaning.resample_named (meaning1 (K := K) order ho) core1_ok hS hw hsel hd hrep hf axesToEnd

/-- **C66**, comoments. -/
theorem C66_resample_cov {o0 o1 : ℕ} (h0 : 1 ≤ o0) (h1 : 1 ≤ o1) {m0 m1 : δ}
    (hm0 : obj.size m0 = o0 + 1) (hm1 : obj.size m1 = o1 + 1)
    {L : (δ → ℕ) → List (Sample2 K)} (hS : StandsNamed core2 (Holds2 o0 o1) obj [m0, m1] L)
    (hw : ∀ c, InLabelled obj [m0, m1] c → 0 ≤ weight2 (L c))
    {axis : Option (Option AxisArg)} {dim : Option (Option δ)} {d : δ}
    (hsel : Chosen obj.dims [m0, m1] axis dim d) (hd : d ∈ valDims obj [m0, m1])
    {rep : δ} (hrep : rep ∉ obj.dims) {freq : List (List K)} (hf : ∀ fs ∈ freq, ∀ f ∈ fs, 0 ≤ f)
    (axesToEnd : Bool) :
    ∃ out, resampleAndReduceX core2 (family2 [obj.size m0, obj.size m1]) obj [m0, m1] freq (obj.size d) axis dim rep axesToEnd
        = .ok out ∧
      ResultNamed core2 (Holds2 o0 o1) out [m0, m1] (renamed (dimsAfter obj.dims d [m0, m1] axesToEnd) d rep)
        (sizesWith obj rep freq.length)
        (fun c => ((freq.getD (c rep) []).zip (samplesAlongName L d (obj.size d) c)).flatMap
          (fun p => p.2.map (reweighted2 p.1))) := by
  rw [family2_eq hm0 hm1]
  exact Meaning.resample_named (meaning2 (K := K) o0 o1 h0 h1) core2_ok hS hw hsel hd hrep hf axesToEnd

/-- **C66** The same with the frequencies counted from a table of indices: replicate `r` stands for the samples of
the places listed in row `r`, as often as they are listed. -/
theorem C66_resample_indices {order : ℕ} (ho : 1 ≤ order) {md : δ} (hm : obj.size md = order + 1)
    {L : (δ → ℕ) → List (Sample K)} (hS : StandsNamed core1 (Holds order) obj [md] L)
    (hw : ∀ c, InLabelled obj [md] c → 0 ≤ weight (L c))
    {axis : Option (Option AxisArg)} {dim : Option (Option δ)} {d : δ}
    (hsel : Chosen obj.dims [md] axis dim d) (hd : d ∈ valDims obj [md])
    {rep : δ} (hrep : rep ∉ obj.dims) {idx : List (List ℕ)}
    (hi : ∀ row ∈ idx, ∀ j ∈ row, j < obj.size d) (axesToEnd : Bool) :
    ∃ out, resampleAndReduceX core1 (family1 [obj.size md]) obj [md]
        (idx.map (fun row => (counts (obj.size d) row).map Nat.cast)) (obj.size d) axis dim rep axesToEnd
        = .ok out ∧
      ResultNamed core1 (Holds order) out [md] (renamed (dimsAfter obj.dims d [md] axesToEnd) d rep)
        (sizesWith obj rep idx.length)
        (fun c => (takeAt (samplesAlongName L d (obj.size d) c) (idx.getD (c rep) [])).flatten) := by
  rw [family1_eq hm]
  exact Meaning.indices_named (meaning1 (K := K) order ho) core1_ok hS hw hsel hd hrep hi axesToEnd

/-- **C66**, comoments. -/
theorem C66_resample_indices_cov {o0 o1 : ℕ} (h0 : 1 ≤ o0) (h1 : 1 ≤ o1) {m0 m1 : δ}
    (hm0 : obj.size m0 = o0 + 1) (hm1 : obj.size m1 = o1 + 1)
    {L : (δ → ℕ) → List (Sample2 K)} (hS : StandsNamed core2 (Holds2 o0 o1) obj [m0, m1] L)
    (hw : ∀ c, InLabelled obj [m0, m1] c → 0 ≤ weight2 (L c))
    {axis : Option (Option AxisArg)} {dim : Option (Option δ)} {d : δ}
    (hsel : Chosen obj.dims [m0, m1] axis dim d) (hd : d ∈ valDims obj [m0, m1])
    {rep : δ} (hrep : rep ∉ obj.dims) {idx : List (List ℕ)}
    (hi : ∀ row ∈ idx, ∀ j ∈ row, j < obj.size d) (axesToEnd : Bool) :
    ∃ out, resampleAndReduceX core2 (family2 [obj.size m0, obj.size m1]) obj [m0, m1]
        (idx.map (fun row => (counts (obj.size d) row).map Nat.cast)) (obj.size d) axis dim rep axesToEnd
        = .ok out ∧
      ResultNamed core2 (Holds2 o0 o1) out [m0, m1] (renamed (dimsAfter obj.dims d [m0, m1] axesToEnd) d rep)
        (sizesWith obj rep idx.length)
        (fun c => (takeAt (samplesAlongName L d (obj.size d) c) (idx.getD (c rep) [])).flatten) := by
  rw [family2_eq hm0 hm1]
  exact Meaning.indices_named (meaning2 (K := K) o0 o1 h0 h1) core2_ok hS hw hsel hd hrep hi axesToEnd

/-- **C66** A table of frequencies for another number of places than the dimension has is refused. -/
theorem C66_resample_wrong_size {order : ℕ} (ho : 1 ≤ order) {md : δ} (hm : obj.size md = order + 1)
    {L : (δ → ℕ) → List (Sample K)} (hS : StandsNamed core1 (Holds order) obj [md] L)
    {axis : Option (Option AxisArg)} {dim : Option (Option δ)} {d : δ}
    (hsel : Chosen obj.dims [md] axis dim d) (hd : d ∈ valDims obj [md])
    {rep : δ} (hrep : rep ∉ obj.dims) (freq : List (List K)) {nsamp : ℕ} (hne : nsamp ≠ obj.size d)
    (axesToEnd : Bool) :
    resampleAndReduceX core1 (family1 [obj.size md]) obj [md] freq nsamp axis dim rep axesToEnd
      = .error .valueError := by
  rw [family1_eq hm]
  exact (C57_resample_data core1_ok (kernel1 order) freq nsamp (goodNamed_of hS hd) hrep hS.object.momCount hsel axesToEnd).1
    hne

/-- **C66**, comoments. -/
theorem C66_resample_wrong_size_cov {o0 o1 : ℕ} (h0 : 1 ≤ o0) (h1 : 1 ≤ o1) {m0 m1 : δ}
    (hm0 : obj.size m0 = o0 + 1) (hm1 : obj.size m1 = o1 + 1)
    {L : (δ → ℕ) → List (Sample2 K)} (hS : StandsNamed core2 (Holds2 o0 o1) obj [m0, m1] L)
    {axis : Option (Option AxisArg)} {dim : Option (Option δ)} {d : δ}
    (hsel : Chosen obj.dims [m0, m1] axis dim d) (hd : d ∈ valDims obj [m0, m1])
    {rep : δ} (hrep : rep ∉ obj.dims) (freq : List (List K)) {nsamp : ℕ} (hne : nsamp ≠ obj.size d)
    (axesToEnd : Bool) :
    resampleAndReduceX core2 (family2 [obj.size m0, obj.size m1]) obj [m0, m1] freq nsamp axis dim rep axesToEnd
      = .error .valueError := by
  rw [family2_eq hm0 hm1]
  exact (C57_resample_data core2_ok (kernel2 o0 o1) freq nsamp (goodNamed_of hS hd) hrep hS.object.momCount hsel axesToEnd).1
    hne

/-- **C66** `obj.jackknife_and_reduce(dim, rep_dim)`: the cell at place `j` stands for the samples of all other
places, provided they have weight. -/
theorem C66_jackknife {order : ℕ} (ho : 1 ≤ order) {md : δ} (hm : obj.size md = order + 1)
    {L : (δ → ℕ) → List (Sample K)} (hS : StandsNamed core1 (Holds order) obj [md] L)
    (hw : ∀ c, InLabelled obj [md] c → 0 ≤ weight (L c))
    {axis : Option (Option AxisArg)} {dim : Option (Option δ)} {d : δ}
    (hsel : Chosen obj.dims [md] axis dim d) (hd : d ∈ valDims obj [md])
    {rep : Option δ} (hrep : ∀ n, rep = some n → n = d ∨ n ∉ obj.dims)
    (hz : ∀ e ∈ obj.dims, e ≠ d → obj.size e ≠ 0)
    (hne : ∀ c, InLabelled obj [md] c →
      weight ((samplesAlongName L d (obj.size d) c).eraseIdx (c d)).flatten ≠ 0) (axesToEnd : Bool) :
    ∃ out, jackknifeAndReduceX core1 (family1 [obj.size md]) obj [md] axis dim rep axesToEnd = .ok out ∧
      ResultNamed core1 (Holds order) out [md]
        (renamed (dimsAfter obj.dims d [md] axesToEnd) d (rep.getD d))
        (sizesWith obj (rep.getD d) (obj.size d))
        (fun c => ((samplesAlongName L d (obj.size d) c).eraseIdx (c (rep.getD d))).flatten) := by
  rw [family1_eq hm]
  exact Meaning.jackknife_named (meaning1 (K := K) order ho) core1_ok hS hw hsel hd hrep hz hne axesToEnd

/-- **C66**, comoments. -/
theorem C66_jackknife_cov {o0 o1 : ℕ} (h0 : 1 ≤ o0) (h1 : 1 ≤ o1) {m0 m1 : δ}
    (hm0 : obj.size m0 = o0 + 1) (hm1 : obj.size m1 = o1 + 1)
    {L : (δ → ℕ) → List (Sample2 K)} (hS : StandsNamed core2 (Holds2 o0 o1) obj [m0, m1] L)
    (hw : ∀ c, InLabelled obj [m0, m1] c → 0 ≤ weight2 (L c))
    {axis : Option (Option AxisArg)} {dim : Option (Option δ)} {d : δ}
    (hsel : Chosen obj.dims [m0, m1] axis dim d) (hd : d ∈ valDims obj [m0, m1])
    {rep : Option δ} (hrep : ∀ n, rep = some n → n = d ∨ n ∉ obj.dims)
    (hz : ∀ e ∈ obj.dims, e ≠ d → obj.size e ≠ 0)
    (hne : ∀ c, InLabelled obj [m0, m1] c →
      weight2 ((samplesAlongName L d (obj.size d) c).eraseIdx (c d)).flatten ≠ 0) (axesToEnd : Bool) :
    ∃ out, jackknifeAndReduceX core2 (family2 [obj.size m0, obj.size m1]) obj [m0, m1] axis dim rep axesToEnd = .ok out ∧
      ResultNamed core2 (Holds2 o0 o1) out [m0, m1]
        (renamed (dimsAfter obj.dims d [m0, m1] axesToEnd) d (rep.getD d))
        (sizesWith obj (rep.getD d) (obj.size d))
        (fun c => ((samplesAlongName L d (obj.size d) c).eraseIdx (c (rep.getD d))).flatten) := by
  rw [family2_eq hm0 hm1]
  exact Meaning.jackknife_named (meaning2 (K := K) o0 o1 h0 h1) core2_ok hS hw hsel hd hrep hz hne axesToEnd

/-- **C66** `obj + other` and `obj += other`: every cell stands for the samples of both objects there, where these
have weight together or `other` has none. A dimension which `other` lacks is filled with the same cells. The
moment dimensions come last. -/
theorem C66_add {order : ℕ} (ho : 1 ≤ order) {md : δ} (hm : obj.size md = order + 1)
    {L : (δ → ℕ) → List (Sample K)} (hS : StandsNamed core1 (Holds order) obj [md] L)
    {other : DataArray δ K} {L' : (δ → ℕ) → List (Sample K)}
    (hS' : StandsNamed core1 (Holds order) other [md] L') (ha : Addable obj other [md])
    (hw : ∀ c, InLabelled obj [md] c → weight (L' c) = 0 ∨ weight (L c) + weight (L' c) ≠ 0) :
    ∃ out, addX core1 family1 false obj [md] other [md] = .ok out ∧
      ResultNamed core1 (Holds order) out [md] (valDims obj [md] ++ [md]) obj.size (fun c => L c ++ L' c) := by
  exact Meaning.add_named (meaning1 (K := K) order ho) core1_ok hS hS' ha (by simp [family1, hm]) hw

/-- **C66**, comoments. -/
theorem C66_add_cov {o0 o1 : ℕ} (h0 : 1 ≤ o0) (h1 : 1 ≤ o1) {m0 m1 : δ}
    (hm0 : obj.size m0 = o0 + 1) (hm1 : obj.size m1 = o1 + 1)
    {L : (δ → ℕ) → List (Sample2 K)} (hS : StandsNamed core2 (Holds2 o0 o1) obj [m0, m1] L)
    {other : DataArray δ K} {L' : (δ → ℕ) → List (Sample2 K)}
    (hS' : StandsNamed core2 (Holds2 o0 o1) other [m0, m1] L') (ha : Addable obj other [m0, m1])
    (hw : ∀ c, InLabelled obj [m0, m1] c → weight2 (L' c) = 0 ∨ weight2 (L c) + weight2 (L' c) ≠ 0) :
    ∃ out, addX core2 family2 false obj [m0, m1] other [m0, m1] = .ok out ∧
      ResultNamed core2 (Holds2 o0 o1) out [m0, m1] (valDims obj [m0, m1] ++ [m0, m1]) obj.size (fun c => L c ++ L' c) := by
  exact Meaning.add_named (meaning2 (K := K) o0 o1 h0 h1) core2_ok hS hS' ha (by simp [family2, hm0, hm1]) hw

/-- **C66** `obj - other` and `obj -= other`: every cell stands for the samples of the object and those of `other`
with their weights negated. -/
theorem C66_sub {order : ℕ} (ho : 1 ≤ order) {md : δ} (hm : obj.size md = order + 1)
    {L : (δ → ℕ) → List (Sample K)} (hS : StandsNamed core1 (Holds order) obj [md] L)
    {other : DataArray δ K} {L' : (δ → ℕ) → List (Sample K)}
    (hS' : StandsNamed core1 (Holds order) other [md] L') (ha : Addable obj other [md])
    (hw : ∀ c, InLabelled obj [md] c → weight (L' c) = 0 ∨ weight (L c) ≠ weight (L' c)) :
    ∃ out, addX core1 family1 true obj [md] other [md] = .ok out ∧
      ResultNamed core1 (Holds order) out [md] (valDims obj [md] ++ [md]) obj.size
        (fun c => L c ++ (L' c).map (reweighted (-1))) := by
  exact Meaning.sub_named (meaning1 (K := K) order ho) core1_ok hS hS' ha (by simp [family1, hm]) hw

/-- **C66**, comoments. -/
theorem C66_sub_cov {o0 o1 : ℕ} (h0 : 1 ≤ o0) (h1 : 1 ≤ o1) {m0 m1 : δ}
    (hm0 : obj.size m0 = o0 + 1) (hm1 : obj.size m1 = o1 + 1)
    {L : (δ → ℕ) → List (Sample2 K)} (hS : StandsNamed core2 (Holds2 o0 o1) obj [m0, m1] L)
    {other : DataArray δ K} {L' : (δ → ℕ) → List (Sample2 K)}
    (hS' : StandsNamed core2 (Holds2 o0 o1) other [m0, m1] L') (ha : Addable obj other [m0, m1])
    (hw : ∀ c, InLabelled obj [m0, m1] c → weight2 (L' c) = 0 ∨ weight2 (L c) ≠ weight2 (L' c)) :
    ∃ out, addX core2 family2 true obj [m0, m1] other [m0, m1] = .ok out ∧
      ResultNamed core2 (Holds2 o0 o1) out [m0, m1] (valDims obj [m0, m1] ++ [m0, m1]) obj.size
        (fun c => L c ++ (L' c).map (reweighted2 (-1))) := by
  exact Meaning.sub_named (meaning2 (K := K) o0 o1 h0 h1) core2_ok hS hS' ha (by simp [family2, hm0, hm1]) hw

/-- **C66** Subtracting a part: where the object stands for the samples of a first part `P` together with those of
`other`, the difference stands for `P`. -/
theorem C66_sub_takes_back {order : ℕ} (ho : 1 ≤ order) {md : δ} (hm : obj.size md = order + 1)
    {L : (δ → ℕ) → List (Sample K)} (hS : StandsNamed core1 (Holds order) obj [md] L)
    {other : DataArray δ K} {L' P : (δ → ℕ) → List (Sample K)}
    (hS' : StandsNamed core1 (Holds order) other [md] L') (ha : Addable obj other [md])
    (hP : ∀ c, InLabelled obj [md] c → (L c).Perm (P c ++ L' c))
    (hw : ∀ c, InLabelled obj [md] c → weight (P c) ≠ 0) :
    ∃ out, addX core1 family1 true obj [md] other [md] = .ok out ∧
      ResultNamed core1 (Holds order) out [md] (valDims obj [md] ++ [md]) obj.size P := by
  exact Meaning.sub_back_named (meaning1 (K := K) order ho) core1_ok hS hS' ha (by simp [family1, hm])
    (fun A B h => funext fun n => ((h.map _).sum_eq)) hP hw

/-- **C66**, comoments. -/
theorem C66_sub_takes_back_cov {o0 o1 : ℕ} (h0 : 1 ≤ o0) (h1 : 1 ≤ o1) {m0 m1 : δ}
    (hm0 : obj.size m0 = o0 + 1) (hm1 : obj.size m1 = o1 + 1)
    {L : (δ → ℕ) → List (Sample2 K)} (hS : StandsNamed core2 (Holds2 o0 o1) obj [m0, m1] L)
    {other : DataArray δ K} {L' P : (δ → ℕ) → List (Sample2 K)}
    (hS' : StandsNamed core2 (Holds2 o0 o1) other [m0, m1] L') (ha : Addable obj other [m0, m1])
    (hP : ∀ c, InLabelled obj [m0, m1] c → (L c).Perm (P c ++ L' c))
    (hw : ∀ c, InLabelled obj [m0, m1] c → weight2 (P c) ≠ 0) :
    ∃ out, addX core2 family2 true obj [m0, m1] other [m0, m1] = .ok out ∧
      ResultNamed core2 (Holds2 o0 o1) out [m0, m1] (valDims obj [m0, m1] ++ [m0, m1]) obj.size P := by
  exact Meaning.sub_back_named (meaning2 (K := K) o0 o1 h0 h1) core2_ok hS hS' ha (by simp [family2, hm0, hm1])
    (fun A B h => funext fun n => ((h.map _).sum_eq)) hP hw

end Methods

section More

variable {δ : Type} [DecidableEq δ] {K V M : Type} [Field K] [DecidableEq K] {core : Nd.Core K M}
  {obj other : DataArray δ K} {moms : List δ}

/-- **C66** A missing label is refused by the policies that take group numbers. -/
theorem C66_missing_label_refused (k : Kernel K V M) (argsort : List ℤ → List ℕ)
    (axis : Option (Option AxisArg)) (dim : Option (Option δ)) {labels : List (Option ℤ)}
    (h : none ∈ labels) (block : Option ℤ) (groupDim : Option δ) (keepdims axesToEnd : Bool) :
    reduceObjX core k argsort obj moms (oneAxis axis) (oneDim dim) (some labels) block false groupDim
      keepdims axesToEnd = .error .typeError := by
  unfold reduceObjX
  simp only [single_axis, single_dim, Except.bind, Bool.false_eq_true, if_false]
  unfold reduceByCode
  rw [if_pos h]

/-- **C66** `+` and `-` refuse an object whose moments have another shape. -/
theorem C66_add_shape_refused (fam : List ℕ → Kernel K V M) (minus : Bool) {moms' : List δ}
    (h : moms'.map other.size ≠ moms.map obj.size) :
    addX core fam minus obj moms other moms' = .error .valueError := by
  unfold addX checkOtherX
  rw [if_pos h]
  rfl

/-- **C66** They refuse an object which lacks one of the moment dimensions, has a dimension with another
size, or has a further dimension of a size other than one. -/
theorem C66_add_refused (fam : List ℕ → Kernel K V M) (minus : Bool)
    (g : LabelledObject obj moms core.nd) {moms' : List δ}
    (h : (∃ d ∈ moms, d ∉ other.dims) ∨ ∃ d ∈ other.dims, (d ∈ obj.dims ∧ other.size d ≠ obj.size d) ∨
      (d ∉ obj.dims ∧ other.size d ≠ 1)) :
    addX core fam minus obj moms other moms' = .error .valueError := by
  unfold addX checkOtherX
  split_ifs
  all_goals try rfl
  all_goals
    refine C64_push_data_refused (core := core) fam (whole_object g) _ (d := .named other) ?_
    refine h.imp id fun ⟨d, h1, h2⟩ => ⟨d, h1, h2.imp id fun ⟨h3, h4⟩ => .inr ⟨h3, fun hm => ?_, h4⟩⟩
    exact h3 (g.momPresent d hm)

end More

section Chains

variable {δ : Type} [DecidableEq δ] {K M : Type} [Field K] {σ : Type*}

/-- The numbers of an array in which nothing is missing. -/
def DataArray.settled (x : DataArray δ (Option K)) : DataArray δ K :=
  { dims := x.dims, data := fun idx => (x.data idx).getD 0, size := x.size }

theorem settledNamed_stands {core : Nd.Core K M} (hc : core.Ok) {H : List σ → M → Prop}
    {out : DataArray δ (Option K)} {moms dims : List δ} {size : δ → ℕ} {L : (δ → ℕ) → List σ}
    (h : ResultNamed core H out moms dims size L) (hd : dims.Nodup) (hm : moms.Nodup)
    (hp : ∀ d ∈ moms, d ∈ dims) (hnd : moms.length = core.nd)
    (hH : ∀ A a b, (∀ ms, Within (moms.map size) ms → core.ent a ms = core.ent b ms) → H A b → H A a) :
    StandsNamed core H (DataArray.settled out) moms L := by
  refine ⟨⟨by rw [DataArray.settled, h.dims_eq]; exact hd, hm,
    fun d hd => by rw [DataArray.settled, h.dims_eq]; exact hp d hd, hnd⟩, fun c hin => ?_⟩
  obtain ⟨r, h1, h2⟩ := h.holds c (fun d hd hdm => by
    have := hin d (mem_valDims.2 ⟨by rw [DataArray.settled, h.dims_eq]; exact hd, hdm⟩)
    rwa [← h.size_eq d hd])
  refine hH _ _ _ (fun ms hms => ?_) h1
  unfold recordNamed
  rw [hc.ent_recd _ _ (by rw [← hnd]; simpa using (within_iff.1 hms).1)]
  show (entry out (withNames moms ms c)).getD 0 = _
  rw [h2 ms hms]
  rfl

theorem mem_renamed_iff {dims : List δ} {old new e : δ} :
    e ∈ renamed dims old new ↔ (e = new ∧ old ∈ dims) ∨ (e ≠ old ∧ e ∈ dims) := by
  unfold renamed
  rw [List.mem_map]
  constructor
  · rintro ⟨a, ha, rfl⟩
    by_cases h : a = old
    · subst h; rw [if_pos rfl]; exact .inl ⟨rfl, ha⟩
    · rw [if_neg h]; exact .inr ⟨h, ha⟩
  · rintro (⟨rfl, h⟩ | ⟨h, h2⟩)
    · exact ⟨old, h, if_pos rfl⟩
    · exact ⟨e, h2, if_neg h⟩

theorem dimsAfter_nodup {dims moms : List δ} {d : δ} (hd : dims.Nodup) (hm : moms.Nodup) (hdm : d ∉ moms)
    (ate : Bool) : (dimsAfter dims d moms ate).Nodup := by
  unfold dimsAfter
  split_ifs
  · refine (hd.filter _).append (List.nodup_cons.2 ⟨hdm, hm⟩) fun e h1 h2 => ?_
    have := (List.mem_filter.1 h1).2
    simp only [decide_eq_true_eq] at this
    exact this h2
  · exact hd

theorem renamed_nodup {dims : List δ} {old new : δ} (hd : dims.Nodup) (hn : new = old ∨ new ∉ dims) :
    (renamed dims old new).Nodup := by
  unfold renamed
  refine (List.nodup_map_iff_inj_on hd).2 fun a ha b hb h => ?_
  split_ifs at h with h1 h2 h2
  · rw [h1, h2]
  · rcases hn with hn | hn
    · rw [h1, ← hn, h]
    · exact absurd (h ▸ hb) hn
  · rcases hn with hn | hn
    · rw [h2, ← hn, ← h]
    · exact absurd (h ▸ ha) hn
  · exact h

/-- **C66** The dimensions of the results of `reduce`, `cumulative`, `resample_and_reduce`,
`jackknife_and_reduce`, `+` and `-` are distinct, and the moment dimensions are among them. -/
theorem C66_result_dims {obj : DataArray δ K} {moms : List δ} {nd : ℕ}
    (g : LabelledObject obj moms nd) :
    (∀ ds keepdims, (∀ d ∈ ds, d ∈ valDims obj moms) →
      (dimsReduced obj.dims ds moms keepdims false).Nodup ∧
        ∀ d ∈ moms, d ∈ dimsReduced obj.dims ds moms keepdims false) ∧
    (∀ d ∈ valDims obj moms, ∀ axesToEnd new, new = d ∨ new ∉ obj.dims →
      (renamed (dimsAfter obj.dims d moms axesToEnd) d new).Nodup ∧
        ∀ e ∈ moms, e ∈ renamed (dimsAfter obj.dims d moms axesToEnd) d new) ∧
    (∀ d ∈ valDims obj moms, ∀ axesToEnd, (dimsAfter obj.dims d moms axesToEnd).Nodup ∧
        ∀ e ∈ moms, e ∈ dimsAfter obj.dims d moms axesToEnd) ∧
    (valDims obj moms ++ moms).Nodup ∧ ∀ e ∈ moms, e ∈ valDims obj moms ++ moms := by
  refine ⟨fun ds keepdims hv => ?_, fun d hd ate new hn => ?_, fun d hd ate => ?_, ?_, ?_⟩
  · cases keepdims
    · exact ⟨g.distinct.filter _, fun d hd => List.mem_filter.2 ⟨g.momPresent d hd, by
        simpa using fun h => (mem_valDims.1 (hv d h)).2 hd⟩⟩
    · exact ⟨g.distinct, g.momPresent⟩
  · obtain ⟨h1, h2⟩ := mem_valDims.1 hd
    refine ⟨renamed_nodup (dimsAfter_nodup g.distinct g.momDistinct h2 ate) (hn.imp id fun h h' =>
      h ((mem_dimsAfter h1 g.momPresent ate).1 h')), fun e he => ?_⟩
    exact mem_renamed ((mem_dimsAfter h1 g.momPresent ate).2 (g.momPresent e he))
      (fun h => h2 (h ▸ he))
  · obtain ⟨h1, h2⟩ := mem_valDims.1 hd
    exact ⟨dimsAfter_nodup g.distinct g.momDistinct h2 ate, fun e he =>
      (mem_dimsAfter h1 g.momPresent ate).2 (g.momPresent e he)⟩
  · refine (g.distinct.filter _).append g.momDistinct fun e h1 h2 => ?_
    exact (mem_valDims.1 h1).2 h2
  · exact fun e he => List.mem_append_right _ he

end Chains

section Results

variable {δ : Type} [DecidableEq δ] {K : Type} [Field K] [DecidableEq K] [CharZero K]

/-- **C66** The results are labelled objects again: the array with these entries stands for the same samples,
so every statement about labelled objects applies to it. -/
theorem C66_result_is_object {order : ℕ} (ho : 1 ≤ order) {out : DataArray δ (Option K)} {md : δ}
    {dims : List δ} {size : δ → ℕ} (hm : size md = order + 1) {L : (δ → ℕ) → List (Sample K)}
    (h : ResultNamed core1 (Holds order) out [md] dims size L) (hd : dims.Nodup) (hp : md ∈ dims) :
    ∃ arr : DataArray δ K, StandsNamed core1 (Holds order) arr [md] L ∧ arr.dims = dims ∧
      (∀ d ∈ dims, arr.size d = size d) ∧
      ∀ c, (∀ d ∈ dims, c d < size d) → entry out c = some (entry arr c) := by
  refine ⟨DataArray.settled out, settledNamed_stands core1_ok h hd (by simp) (by simpa using hp) rfl
    (fun A a b e hb => holds_congr ho (fun n hn => e [n] (.cons (by simp only [hm]; omega) .nil)) hb),
    h.dims_eq, h.size_eq, fun c hcb => ?_⟩
  obtain ⟨r, h1, h2⟩ := h.holds c (fun d hd _ => hcb d hd)
  have e := h2 [c md] (.cons (hcb md hp) .nil)
  have hc : withNames [md] [c md] c = c := by
    funext d
    unfold withNames
    by_cases hd : d = md
    · subst hd; simp
    · rw [if_neg (by simpa using hd)]
  rw [hc] at e
  show entry out c = some ((entry out c).getD 0)
  rw [e]
  rfl

/-- **C66**, comoments. -/
theorem C66_result_is_object_cov {o0 o1 : ℕ} (h0 : 1 ≤ o0) (h1 : 1 ≤ o1)
    {out : DataArray δ (Option K)} {m0 m1 : δ} (hne : m0 ≠ m1)
    {dims : List δ} {size : δ → ℕ} (hm0 : size m0 = o0 + 1) (hm1 : size m1 = o1 + 1)
    {L : (δ → ℕ) → List (Sample2 K)}
    (h : ResultNamed core2 (Holds2 o0 o1) out [m0, m1] dims size L) (hd : dims.Nodup)
    (hp0 : m0 ∈ dims) (hp1 : m1 ∈ dims) :
    ∃ arr : DataArray δ K, StandsNamed core2 (Holds2 o0 o1) arr [m0, m1] L ∧ arr.dims = dims ∧
      (∀ d ∈ dims, arr.size d = size d) ∧
      ∀ c, (∀ d ∈ dims, c d < size d) → entry out c = some (entry arr c) := by
  refine ⟨DataArray.settled out, settledNamed_stands core2_ok h hd (by simpa using hne)
    (by simpa using ⟨hp0, hp1⟩) rfl
    (fun A a b e hb => holds2_congr h0 h1 (fun i j hi hj => e [i, j]
      (.cons (by simp only [hm0]; omega) (.cons (by simp only [hm1]; omega) .nil))) hb),
    h.dims_eq, h.size_eq, fun c hcb => ?_⟩
  obtain ⟨r, h1, h2⟩ := h.holds c (fun d hd _ => hcb d hd)
  have e := h2 [c m0, c m1] (.cons (hcb m0 hp0) (.cons (hcb m1 hp1) .nil))
  have hc : withNames [m0, m1] [c m0, c m1] c = c := by
    funext d
    unfold withNames
    by_cases hd : d = m0
    · subst hd; simp
    · by_cases hd1 : d = m1
      · subst hd1
        rw [if_pos (by simp), List.idxOf_cons_ne _ (Ne.symm hd)]
        simp
      · rw [if_neg (by simpa using ⟨hd, hd1⟩)]
  rw [hc] at e
  show entry out c = some ((entry out c).getD 0)
  rw [e]
  rfl

/-- **C66** Two results that stand for the same samples at some coordinates have the same entries there, if
these samples have weight. The results may list their dimensions in different orders. -/
theorem C66_same_samples {order : ℕ} (ho : 1 ≤ order) {out out' : DataArray δ (Option K)} {md : δ}
    {dims dims' : List δ} {size size' : δ → ℕ} (hm : size md = order + 1) (hm' : size' md = order + 1)
    {L L' : (δ → ℕ) → List (Sample K)}
    (h : ResultNamed core1 (Holds order) out [md] dims size L)
    (h' : ResultNamed core1 (Holds order) out' [md] dims' size' L') {c : δ → ℕ}
    (hc : ∀ d ∈ dims, c d < size d) (hc' : ∀ d ∈ dims', c d < size' d) (hmd : c md ≤ order)
    (hp : (L c).Perm (L' c)) (hne : weight (L c) ≠ 0) : entry out c = entry out' c := by
  obtain ⟨r, hr, e⟩ := h.holds c (fun d hd _ => hc d hd)
  obtain ⟨r', hr', e'⟩ := h'.holds c (fun d hd _ => hc' d hd)
  have hwn : withNames [md] [c md] c = c := by
    funext d
    unfold withNames
    by_cases hd : d = md
    · subst hd; simp
    · rw [if_neg (by simpa using hd)]
  have e := e [c md] (.cons (by simp only [hm]; omega) .nil)
  have e' := e' [c md] (.cons (by simp only [hm']; omega) .nil)
  rw [hwn] at e e'
  let T := meaning1 (K := K) order ho
  have heq : T.raw (L c) = T.raw (L' c) := funext fun n => ((hp.map _).sum_eq)
  have := (eqv1_iff ho).1 ((lawful1 order ho).eqv_of_raw (a := r) (b := r')
    (by rw [T.cell_weight hr]; exact hne) (by rw [(T.iff _ _).1 hr, (T.iff _ _).1 hr', heq]))
  rw [e, e']
  exact congrArg some (this (c md) hmd)

/-- **C66**, comoments. -/
theorem C66_same_samples_cov {o0 o1 : ℕ} (h0 : 1 ≤ o0) (h1 : 1 ≤ o1)
    {out out' : DataArray δ (Option K)} {m0 m1 : δ} (hmne : m0 ≠ m1)
    {dims dims' : List δ} {size size' : δ → ℕ} (hm0 : size m0 = o0 + 1) (hm1 : size m1 = o1 + 1)
    (hm0' : size' m0 = o0 + 1) (hm1' : size' m1 = o1 + 1)
    {L L' : (δ → ℕ) → List (Sample2 K)}
    (h : ResultNamed core2 (Holds2 o0 o1) out [m0, m1] dims size L)
    (h' : ResultNamed core2 (Holds2 o0 o1) out' [m0, m1] dims' size' L') {c : δ → ℕ}
    (hc : ∀ d ∈ dims, c d < size d) (hc' : ∀ d ∈ dims', c d < size' d) (hmd0 : c m0 ≤ o0)
    (hmd1 : c m1 ≤ o1) (hp : (L c).Perm (L' c)) (hne : weight2 (L c) ≠ 0) :
    entry out c = entry out' c := by
  obtain ⟨r, hr, e⟩ := h.holds c (fun d hd _ => hc d hd)
  obtain ⟨r', hr', e'⟩ := h'.holds c (fun d hd _ => hc' d hd)
  have hwn : withNames [m0, m1] [c m0, c m1] c = c := by
    funext d
    unfold withNames
    by_cases hd : d = m0
    · subst hd; simp
    · by_cases hd1 : d = m1
      · subst hd1
        rw [if_pos (by simp), List.idxOf_cons_ne _ (Ne.symm hd)]
        simp
      · rw [if_neg (by simpa using ⟨hd, hd1⟩)]
  have e := e [c m0, c m1] (.cons (by simp only [hm0]; omega) (.cons (by simp only [hm1]; omega) .nil))
  have e' := e' [c m0, c m1]
    (.cons (by simp only [hm0']; omega) (.cons (by simp only [hm1']; omega) .nil))
  rw [hwn] at e e'
  let T := meaning2 (K := K) o0 o1 h0 h1
  have heq : T.raw (L c) = T.raw (L' c) := funext fun n => ((hp.map _).sum_eq)
  have := (eqv2_iff h0 h1).1 ((lawful2 o0 o1 h0 h1).eqv_of_raw (a := r) (b := r')
    (by rw [T.cell_weight hr]; exact hne) (by rw [(T.iff _ _).1 hr, (T.iff _ _).1 hr', heq]))
  rw [e, e']
  exact congrArg some (this (c m0) (c m1) hmd0 hmd1)

end Results

section Steps

variable {δ : Type} [DecidableEq δ] {σ : Type*} {L : (δ → ℕ) → List σ}

theorem allCoords_append (size : δ → ℕ) (ds ds' : List δ) (c : δ → ℕ) :
    allCoords size (ds ++ ds') c = (allCoords size ds c).flatMap (allCoords size ds') := by
  induction ds generalizing c with
  | nil => simp [allCoords]
  | cons d ds ih =>
    simp only [List.cons_append, allCoords, ih, List.flatMap_assoc]

theorem allCoords_sizes {size size' : δ → ℕ} {ds : List δ} (h : ∀ d ∈ ds, size' d = size d) (c : δ → ℕ) :
    allCoords size' ds c = allCoords size ds c := by
  induction ds generalizing c with
  | nil => rfl
  | cons d ds ih =>
    simp only [allCoords, h d (by simp)]
    exact List.flatMap_congr fun j _ => ih (fun e he => h e (List.mem_cons_of_mem _ he)) _

/-- **C66** Reducing over the dimensions `ds` and the result over `ds'`: the cells stand for the same samples
as after reducing over all of them at once. (By `C66_result_is_object` and `C66_reduce` the second step
gives the samples on the left.) -/
theorem C66_reduce_steps {size size' : δ → ℕ} {ds ds' : List δ} (h : ∀ d ∈ ds', size' d = size d)
    (c : δ → ℕ) :
    samplesOverNames (samplesOverNames L size ds) size' ds' c = samplesOverNames L size (ds' ++ ds) c := by
  unfold samplesOverNames
  rw [allCoords_sizes h, allCoords_append, List.flatMap_assoc]

theorem flatMap_swap {α β γ : Type*} (l : List α) (l' : List β) (f : α → β → List γ) :
    (l.flatMap fun a => l'.flatMap fun b => f a b).Perm (l'.flatMap fun b => l.flatMap fun a => f a b) := by
  induction l with
  | nil => simp
  | cons a l ih =>
    simp only [List.flatMap_cons]
    exact (ih.append_left _).trans (List.flatMap_append_perm _ _ _)

theorem allCoords_congr_perm (size : δ → ℕ) {ds ds' : List δ} (h : ds.Perm ds') (hn : ds.Nodup) (c : δ → ℕ) :
    (allCoords size ds c).Perm (allCoords size ds' c) := by
  induction h generalizing c with
  | nil => exact .refl _
  | cons d _ ih =>
    simp only [allCoords]
    exact List.Perm.flatMap_left _ fun j _ => ih (List.nodup_cons.1 hn).2 _
  | swap d e l =>
    have hne : d ≠ e := by
      rintro rfl
      simp at hn
    simp only [allCoords]
    have e1 : ∀ j i, Function.update (Function.update c e j) d i
        = Function.update (Function.update c d i) e j := fun j i =>
      Function.update_comm hne.symm j i c
    simp only [e1]
    exact flatMap_swap _ _ _
  | trans h1 _ ih1 ih2 => exact (ih1 hn c).trans (ih2 (h1.nodup_iff.1 hn) c)

/-- **C66** The order in which the dimensions are named makes no difference to the samples. -/
theorem C66_reduce_order (size : δ → ℕ) {ds ds' : List δ} (h : ds.Perm ds') (hn : ds.Nodup) (c : δ → ℕ) :
    (samplesOverNames L size ds c).Perm (samplesOverNames L size ds' c) :=
  (allCoords_congr_perm size h hn c).flatMap_right _

end Steps

/-! ## Examples -/

section Examples

open ExDim

/-- One sample of weight one in each cell, of value `p + 10 t`. -/
def exGather : DataArray ExDim ℚ where
  dims := [p, m, t]
  data idx := if idx.getD 1 0 = 0 then 1 else if idx.getD 1 0 = 1 then
    (idx.getD 0 0 : ℚ) + 10 * (idx.getD 2 0 : ℚ) else 0
  size d := match d with
    | t => 2
    | _ => 3

def exGatherL (c : ExDim → ℕ) : List (Sample ℚ) := [⟨1, (c p : ℚ) + 10 * (c t : ℚ)⟩]

theorem exGather_stands : StandsNamed core1 (Holds 2) exGather [m] exGatherL where
  object := ⟨by decide, by decide, by decide, rfl⟩
  holds := by
    intro c _
    have e : ∀ n, recordNamed core1 exGather [m] c n
        = if n = 0 then 1 else if n = 1 then (c p : ℚ) + 10 * (c t : ℚ) else 0 := fun n => rfl
    refine .inl ⟨by norm_num [exGatherL, weight], ?_, ?_, fun n h1 h2 => ?_⟩
    · rw [e]; norm_num [exGatherL, weight]
    · rw [e]; norm_num [exGatherL, weight, mean, wsum]
    · obtain rfl : n = 2 := by omega
      rw [e]; norm_num [exGatherL, weight, mean, wsum, central]

theorem exGather_nonneg : ∀ c, InLabelled exGather [m] c → 0 ≤ weight (exGatherL c) := by
  intro c _
  norm_num [exGatherL, weight]

/-- One pair in each cell. -/
def exGather2 : DataArray ExDim ℚ where
  dims := [p, m, n]
  data idx := if idx.getD 1 0 = 0 then (if idx.getD 2 0 = 0 then 1 else 2) else
    (if idx.getD 2 0 = 0 then (idx.getD 0 0 : ℚ) else 0)
  size d := match d with
    | p => 3
    | _ => 2

def exGather2L (c : ExDim → ℕ) : List (Sample2 ℚ) := [⟨1, c p, 2⟩]

theorem exGather2_stands : StandsNamed core2 (Holds2 1 1) exGather2 [m, n] exGather2L where
  object := ⟨by decide, by decide, by decide, rfl⟩
  holds := by
    intro c _
    have e : ∀ i j, recordNamed core2 exGather2 [m, n] c i j
        = if i = 0 then (if j = 0 then 1 else 2) else (if j = 0 then (c p : ℚ) else 0) :=
      fun i j => rfl
    refine .inl ⟨by norm_num [exGather2L, weight2], ?_, ?_, ?_, fun i j h1 h2 h3 => ?_⟩
    · rw [e]; norm_num [exGather2L, weight2]
    · rw [e]; norm_num [exGather2L, weight2, meanX, wsum2]
    · rw [e]; norm_num [exGather2L, weight2, meanY, wsum2]
    · obtain rfl : i = 1 := by omega
      obtain rfl : j = 1 := by omega
      rw [e]; norm_num [exGather2L, weight2, meanX, meanY, wsum2, central2]

theorem exGather2_nonneg : ∀ c, InLabelled exGather2 [m, n] c → 0 ≤ weight2 (exGather2L c) := by
  intro c _
  norm_num [exGather2L, weight2]

/-- Labels for the three places: the second one is missing, the others form groups `2` and `5`. -/
def exGatherBy : List (Option ℤ) := [some 5, none, some 2]

theorem exGather_groups : GroupsOf exGatherBy [2, 5] := by
  refine ⟨by decide, fun z => ?_⟩
  simp only [exGatherBy, List.mem_cons, List.not_mem_nil, or_false, Option.some.injEq, reduceCtorEq,
    false_or]
  omega

example := C66_reduce (by omega) rfl exGather_stands exGather_nonneg exArgsort (axis := none)
  (dim := some (some [t, p])) (ds := [t, p]) (.inl ⟨rfl, rfl⟩) (by decide) (by decide) (by decide)
  (by decide) true none true false
example : dimEntries (reduceObjX core1 (family1 [exGather.size m]) exArgsort exGather [m] none
    (some (some [t])) none none true none false true) [[(p, 1), (m, 0)], [(p, 1), (m, 1)], [(p, 1), (m, 2)]]
    = some ([p, m], [3, 3], [some 2, some 6, some 25]) := by decide +kernel
example : dimEntries (reduceObjX core1 (family1 [exGather.size m]) exArgsort exGather [m] none
    (some (some [t, p])) none none true none true false) [[(p, 0), (m, 0), (t, 0)], [(p, 0), (m, 1), (t, 0)]]
    = some ([p, m, t], [1, 3, 1], [some 6, some 6]) := by decide +kernel
example := C66_reduce_cov (by omega) (by omega) rfl rfl exGather2_stands exGather2_nonneg exArgsort
  (axis := none) (dim := some (some [p])) (ds := [p]) (.inl ⟨rfl, rfl⟩) (by decide) (by decide) (by decide)
  (by decide) true none false false

example := C66_reduce_by (by omega) rfl exGather_stands exGather_nonneg exArgsort_isArgsort (axis := none)
  (dim := some (some p)) (d := p) (.inl ⟨rfl, rfl⟩) (by decide) exGather_groups
  (labelsWithin_of_length (by decide)) none (groupDim := some b) (by intro n h; cases h; decide) false true
example : dimEntries (reduceObjX core1 (family1 [exGather.size m]) exArgsort exGather [m] none
    (some (some [p])) (some exGatherBy) none true (some b) false true)
    [[(t, 1), (b, 0), (m, 1)], [(t, 1), (b, 1), (m, 1)]]
    = some ([t, b, m], [2, 2, 3], [some 12, some 10]) := by decide +kernel
-- labels for two of the three places are taken
example := C66_reduce_by (by omega) rfl exGather_stands exGather_nonneg exArgsort_isArgsort (axis := none)
  (dim := some (some p)) (d := p) (.inl ⟨rfl, rfl⟩) (by decide) (labels := [some 0, some 0]) (gs := [0])
  ⟨by decide, fun z => by simp; omega⟩ (labelsWithin_of_length (by decide)) none (groupDim := none)
  (by simp) false false
example : dimEntries (reduceObjX core1 (family1 [exGather.size m]) exArgsort exGather [m] none
    (some (some [p])) (some [some 0, some 0]) none true none false false)
    [[(p, 0), (m, 0), (t, 0)], [(p, 0), (m, 1), (t, 0)]]
    = some ([p, m, t], [1, 3, 2], [some 2, some (1 / 2)]) := by decide +kernel
example := C66_reduce_by_cov (by omega) (by omega) rfl rfl exGather2_stands exGather2_nonneg
  exArgsort_isArgsort (axis := none) (dim := some (some p)) (d := p) (.inl ⟨rfl, rfl⟩) (by decide)
  exGather_groups (labelsWithin_of_length (by decide)) none (groupDim := none) (by simp) false true

example := C66_reduce_by_refused (by omega) rfl exGather_stands exArgsort_isArgsort (axis := none)
  (dim := some (some p)) (d := p) (.inl ⟨rfl, rfl⟩) (by decide)
  (labels := [some 0, some 0, some 1, some 1]) (fun h => absurd (h 3 1 rfl (by decide)) (by decide)) none
  (groupDim := none) (by simp) false false
example := C66_reduce_by_refused_cov (by omega) (by omega) rfl rfl exGather2_stands exArgsort_isArgsort
  (axis := none) (dim := some (some p)) (d := p) (.inl ⟨rfl, rfl⟩) (by decide)
  (labels := [some 0, some 0, some 1, some 1]) (fun h => absurd (h 3 1 rfl (by decide)) (by decide)) none
  (groupDim := none) (by simp) false false

example := C66_reduce_by_code (by omega) rfl exGather_stands exGather_nonneg exArgsort (axis := none)
  (dim := some (some p)) (d := p) (.inl ⟨rfl, rfl⟩) (by decide) (by_ := [2, -1, 0]) (m := 2) rfl (by decide)
  (by decide) (by decide) none (groupDim := some b) (by intro n h; cases h; decide) false true
example : dimEntries (reduceObjX core1 (family1 [exGather.size m]) exArgsort exGather [m] none
    (some (some [p])) (some [some 2, some (-1), some 0]) none false (some b) false true)
    [[(t, 1), (b, 0), (m, 1)], [(t, 1), (b, 1), (m, 0)], [(t, 1), (b, 2), (m, 1)]]
    = some ([t, b, m], [2, 3, 3], [some 12, some 0, some 10]) := by decide +kernel
example := C66_reduce_by_code_cov (by omega) (by omega) rfl rfl exGather2_stands exGather2_nonneg exArgsort
  (axis := none) (dim := some (some p)) (d := p) (.inl ⟨rfl, rfl⟩) (by decide) (by_ := [2, -1, 0]) (m := 2)
  rfl (by decide) (by decide) (by decide) none (groupDim := none) (by simp) false true
example := C66_reduce_by_code_refused (by omega) rfl exGather_stands exArgsort (axis := none)
  (dim := some (some p)) (d := p) (.inl ⟨rfl, rfl⟩) (by decide) (by_ := [2, -1]) (.inl (by decide)) none
  (groupDim := none) (by simp) false true
example := C66_reduce_by_code_refused_cov (by omega) (by omega) rfl rfl exGather2_stands exArgsort
  (axis := none) (dim := some (some p)) (d := p) (.inl ⟨rfl, rfl⟩) (by decide) (by_ := [-2, -2, -3])
  (.inr (by decide)) none (groupDim := none) (by simp) false true
example := C66_missing_label_refused (core := core1) (obj := exGather) (moms := [m]) (kernel1 2) exArgsort none
  (some (some p)) (labels := exGatherBy) (by decide) none none false false

example := C66_reduce_by_all (by omega) rfl exGather_stands exGather_nonneg exArgsort_isArgsort
  (axis := none) (dim := some (some p)) (d := p) (.inl ⟨rfl, rfl⟩) (by decide) (by_ := [1, -4, 0]) (n := 2)
  rfl (by decide) (fun z hz => by simp; omega) none false (groupDim := none) (by simp) false true
example := C66_reduce_by_all_cov (by omega) (by omega) rfl rfl exGather2_stands exGather2_nonneg
  exArgsort_isArgsort (axis := none) (dim := some (some p)) (d := p) (.inl ⟨rfl, rfl⟩) (by decide)
  (by_ := [1, -4, 0]) (n := 2) rfl (by decide) (fun z hz => by simp; omega) none true (groupDim := none)
  (by simp) false true

example := C66_reduce_block (by omega) rfl exGather_stands exGather_nonneg exArgsort_isArgsort
  (axis := none) (dim := some (some p)) (d := p) (.inl ⟨rfl, rfl⟩) (by decide) (b := 2) (by decide) (by decide)
  true (groupDim := none) (by simp) false true
example : dimEntries (reduceObjX core1 (family1 [exGather.size m]) exArgsort exGather [m] none
    (some (some [p])) none (some 2) true none false false)
    [[(p, 0), (m, 0), (t, 1)], [(p, 0), (m, 1), (t, 1)]]
    = some ([p, m, t], [1, 3, 2], [some 2, some (21 / 2)]) := by decide +kernel
example := C66_reduce_block_cov (by omega) (by omega) rfl rfl exGather2_stands exGather2_nonneg
  exArgsort_isArgsort (axis := none) (dim := some (some p)) (d := p) (.inl ⟨rfl, rfl⟩) (by decide) (b := 2)
  (by decide) (by decide) false (groupDim := none) (by simp) false true
example := C66_reduce_one_block (by omega) rfl exGather_stands exGather_nonneg exArgsort_isArgsort
  (axis := none) (dim := some (some p)) (d := p) (.inl ⟨rfl, rfl⟩) (by decide) (b := -1) (by decide) (by decide)
  true (groupDim := none) (by simp) false true
example := C66_reduce_one_block_cov (by omega) (by omega) rfl rfl exGather2_stands exGather2_nonneg
  exArgsort_isArgsort (axis := none) (dim := some (some p)) (d := p) (.inl ⟨rfl, rfl⟩) (by decide) (b := 0)
  (by decide) (by decide) false (groupDim := none) (by simp) false true
example := C66_block_refused (by omega) rfl exGather_stands exArgsort
  (axis := none) (dim := some (some p)) (d := p) (.inl ⟨rfl, rfl⟩) (by decide) (b := 4) (.inr (by decide))
  true none false true
example := C66_block_refused_cov (by omega) (by omega) rfl rfl exGather2_stands exArgsort
  (axis := none) (dim := some (some p)) (d := p) (.inl ⟨rfl, rfl⟩) (by decide) (b := 4) (.inr (by decide))
  false none false true

example := C66_cumulative (by omega) rfl exGather_stands exGather_nonneg (axis := none)
  (dim := some (some p)) (d := p) (.inl ⟨rfl, rfl⟩) (by decide) false
example : dimEntries (cumulativeObjX core1 (family1 [exGather.size m]) exGather [m] none (some (some p)) false)
    [[(p, 2), (m, 0), (t, 1)], [(p, 2), (m, 1), (t, 1)]]
    = some ([p, m, t], [3, 3, 2], [some 3, some 11]) := by decide +kernel
example := C66_cumulative_cov (by omega) (by omega) rfl rfl exGather2_stands exGather2_nonneg (axis := none)
  (dim := some (some p)) (d := p) (.inl ⟨rfl, rfl⟩) (by decide) true

example := C66_resample (by omega) rfl exGather_stands exGather_nonneg (axis := none)
  (dim := some (some p)) (d := p) (.inl ⟨rfl, rfl⟩) (by decide) (rep := b) (by decide)
  (freq := [[1, 0, 2], [0, 1 / 2, 0]]) (by norm_num) false
example : dimEntries (resampleAndReduceX core1 (family1 [exGather.size m]) exGather [m]
    [[1, 0, 2], [0, 1 / 2, 0]] 3 none (some (some p)) b false)
    [[(b, 0), (m, 0), (t, 1)], [(b, 0), (m, 1), (t, 1)], [(b, 1), (m, 0), (t, 1)]]
    = some ([b, m, t], [2, 3, 2], [some 3, some (34 / 3), some (1 / 2)]) := by decide +kernel
example := C66_resample_cov (by omega) (by omega) rfl rfl exGather2_stands exGather2_nonneg (axis := none)
  (dim := some (some p)) (d := p) (.inl ⟨rfl, rfl⟩) (by decide) (rep := b) (by decide)
  (freq := [[1, 0, 2], [0, 1 / 2, 0]]) (by norm_num) true
example := C66_resample_indices (by omega) rfl exGather_stands exGather_nonneg (axis := none)
  (dim := some (some p)) (d := p) (.inl ⟨rfl, rfl⟩) (by decide) (rep := b) (by decide)
  (idx := [[0, 2, 2], [1, 1, 1]]) (by decide) false
example := C66_resample_indices_cov (by omega) (by omega) rfl rfl exGather2_stands exGather2_nonneg
  (axis := none) (dim := some (some p)) (d := p) (.inl ⟨rfl, rfl⟩) (by decide) (rep := b) (by decide)
  (idx := [[0, 2, 2], [1, 1, 1]]) (by decide) false
example := C66_resample_wrong_size (by omega) rfl exGather_stands (axis := none)
  (dim := some (some p)) (d := p) (.inl ⟨rfl, rfl⟩) (by decide) (rep := b) (by decide) [[1, 1]]
  (nsamp := 2) (by decide) false
example := C66_resample_wrong_size_cov (by omega) (by omega) rfl rfl exGather2_stands (axis := none)
  (dim := some (some p)) (d := p) (.inl ⟨rfl, rfl⟩) (by decide) (rep := b) (by decide) [[1, 1]]
  (nsamp := 2) (by decide) false

example := C66_jackknife (by omega) rfl exGather_stands exGather_nonneg (axis := none)
  (dim := some (some t)) (d := t) (.inl ⟨rfl, rfl⟩) (by decide) (rep := some b)
  (by intro n h; cases h; decide) (by decide) (fun c hc => by
    have : c t < 2 := hc t (by decide)
    obtain e | e : c t = 0 ∨ c t = 1 := by omega
    all_goals norm_num [e, samplesAlongName, exGatherL, weight, exGather, List.range_succ]) false
example : dimEntries (jackknifeAndReduceX core1 (family1 [exGather.size m]) exGather [m] none (some (some p))
    none true) [[(t, 1), (p, 0), (m, 0)], [(t, 1), (p, 0), (m, 1)]]
    = some ([t, p, m], [2, 3, 3], [some 2, some (23 / 2)]) := by decide +kernel
example := C66_jackknife_cov (by omega) (by omega) rfl rfl exGather2_stands exGather2_nonneg (axis := none)
  (dim := some (some p)) (d := p) (.inl ⟨rfl, rfl⟩) (by decide) (rep := none)
  (by simp) (by decide) (fun c hc => by
    have : c p < 3 := hc p (by decide)
    obtain e | e | e : c p = 0 ∨ c p = 1 ∨ c p = 2 := by omega
    all_goals norm_num [e, samplesAlongName, exGather2L, weight2, exGather2, List.range_succ]) false

/-- One sample for each time. -/
def exGatherOther : DataArray ExDim ℚ where
  dims := [m, t]
  data idx := if idx.getD 0 0 = 0 then 1 else if idx.getD 0 0 = 1 then (idx.getD 1 0 : ℚ) else 0
  size d := match d with
    | t => 2
    | _ => 3

def exGatherOtherL (c : ExDim → ℕ) : List (Sample ℚ) := [⟨1, c t⟩]

theorem exGatherOther_stands : StandsNamed core1 (Holds 2) exGatherOther [m] exGatherOtherL where
  object := ⟨by decide, by decide, by decide, rfl⟩
  holds := by
    intro c _
    have e : ∀ n, recordNamed core1 exGatherOther [m] c n
        = if n = 0 then 1 else if n = 1 then (c t : ℚ) else 0 := fun n => rfl
    refine .inl ⟨by norm_num [exGatherOtherL, weight], ?_, ?_, fun n h1 h2 => ?_⟩
    · rw [e]; norm_num [exGatherOtherL, weight]
    · rw [e]; norm_num [exGatherOtherL, weight, mean, wsum]
    · obtain rfl : n = 2 := by omega
      rw [e]; norm_num [exGatherOtherL, weight, mean, wsum, central]

example := C66_add (by omega) rfl exGather_stands exGatherOther_stands ⟨by decide, by decide, by decide⟩
  (fun c _ => .inr (by norm_num [exGatherL, exGatherOtherL, weight]))
example : dimEntries (addX core1 family1 false exGather [m] exGatherOther [m])
    [[(p, 2), (t, 1), (m, 0)], [(p, 2), (t, 1), (m, 1)], [(p, 2), (t, 1), (m, 2)]]
    = some ([p, t, m], [3, 2, 3], [some 2, some (13 / 2), some (121 / 4)]) := by decide +kernel
example := C66_add_cov (by omega) (by omega) rfl rfl exGather2_stands exGather2_stands
  ⟨by decide, by decide, by decide⟩ (fun c _ => .inr (by norm_num [exGather2L, weight2]))

/-- The pairs of `exGather2` with the weight `w`. -/
def exGather2W (w : ℚ) : DataArray ExDim ℚ where
  dims := [p, m, n]
  data idx := if idx.getD 1 0 = 0 then (if idx.getD 2 0 = 0 then w else 2) else
    (if idx.getD 2 0 = 0 then (idx.getD 0 0 : ℚ) else 0)
  size d := match d with
    | p => 3
    | _ => 2

theorem exGather2W_stands : StandsNamed core2 (Holds2 1 1) (exGather2W 2) [m, n]
    (fun c => [⟨2, c p, 2⟩]) where
  object := ⟨by decide, by decide, by decide, rfl⟩
  holds := by
    intro c _
    have e : ∀ i j, recordNamed core2 (exGather2W 2) [m, n] c i j
        = if i = 0 then (if j = 0 then 2 else 2) else (if j = 0 then (c p : ℚ) else 0) :=
      fun i j => rfl
    refine .inl ⟨by norm_num [weight2], ?_, ?_, ?_, fun i j h1 h2 h3 => ?_⟩
    · rw [e]; norm_num [weight2]
    · rw [e]; norm_num [weight2, meanX, wsum2]
    · rw [e]; norm_num [weight2, meanY, wsum2]
    · obtain rfl : i = 1 := by omega
      obtain rfl : j = 1 := by omega
      rw [e]; norm_num [weight2, meanX, meanY, wsum2, central2]

theorem exGather2W_sum_stands : StandsNamed core2 (Holds2 1 1) (exGather2W 3) [m, n]
    (fun c => exGather2L c ++ [⟨2, c p, 2⟩]) where
  object := ⟨by decide, by decide, by decide, rfl⟩
  holds := by
    intro c _
    have e : ∀ i j, recordNamed core2 (exGather2W 3) [m, n] c i j
        = if i = 0 then (if j = 0 then 3 else 2) else (if j = 0 then (c p : ℚ) else 0) :=
      fun i j => rfl
    refine .inl ⟨by norm_num [exGather2L, weight2], ?_, ?_, ?_, fun i j h1 h2 h3 => ?_⟩
    · rw [e]; norm_num [exGather2L, weight2]
    · rw [e]; norm_num [exGather2L, weight2, meanX, wsum2]; ring
    · rw [e]; norm_num [exGather2L, weight2, meanY, wsum2]
    · obtain rfl : i = 1 := by omega
      obtain rfl : j = 1 := by omega
      rw [e]; norm_num [exGather2L, weight2, meanX, meanY, wsum2, central2]

example := C66_sub_cov (by omega) (by omega) rfl rfl exGather2_stands exGather2W_stands
  ⟨by decide, by decide, by decide⟩ (fun c _ => .inr (by norm_num [exGather2L, weight2]))
example := C66_sub_takes_back_cov (by omega) (by omega) rfl rfl exGather2W_sum_stands exGather2W_stands
  ⟨by decide, by decide, by decide⟩ (fun c _ => .refl _) (fun c _ => by norm_num [exGather2L, weight2])

/-- Two samples in each cell, one of them that of `exGatherOther`. -/
theorem exGather_sum : ∃ arr : DataArray ExDim ℚ, StandsNamed core1 (Holds 2) arr [m]
    (fun c => exGatherL c ++ exGatherOtherL c) ∧ arr.dims = [p, t, m] ∧
    ∀ d ∈ [p, t, m], arr.size d = exGather.size d := by
  obtain ⟨out, -, h⟩ := C66_add (by omega) rfl exGather_stands exGatherOther_stands
    ⟨by decide, by decide, by decide⟩ (fun c _ => .inr (by norm_num [exGatherL, exGatherOtherL, weight]))
  obtain ⟨arr, h1, h2, h3, -⟩ := C66_result_is_object (order := 2) (md := m) (by omega) (size := exGather.size) rfl
    h (by decide) (by decide)
  exact ⟨arr, h1, h2, h3⟩

-- what has been added can be taken back
example : ∃ arr out, addX core1 family1 true arr [m] exGatherOther [m] = .ok out ∧
    ResultNamed core1 (Holds 2) out [m] (valDims arr [m] ++ [m]) arr.size exGatherL := by
  obtain ⟨arr, h1, h2, h3⟩ := exGather_sum
  have hd : ∀ d ∈ exGatherOther.dims, d ∈ arr.dims ∧ exGatherOther.size d = arr.size d := by
    intro d hd
    rw [h2]
    fin_cases hd
    · exact ⟨by decide, by rw [h3 m (by decide)]; rfl⟩
    · exact ⟨by decide, by rw [h3 t (by decide)]; rfl⟩
  obtain ⟨out, h⟩ := C66_sub_takes_back (by omega) (h3 m (by decide)) h1 exGatherOther_stands
    ⟨by decide, by decide, hd⟩ (P := exGatherL) (fun c _ => .refl _)
    (fun c _ => by norm_num [exGatherL, weight])
  exact ⟨arr, out, h⟩

/-- The sample of `exGatherOther` with weight three. -/
def exGatherHeavy : DataArray ExDim ℚ :=
  { exGatherOther with
    data := fun idx => if idx.getD 0 0 = 0 then 3 else if idx.getD 0 0 = 1 then (idx.getD 1 0 : ℚ) else 0 }

theorem exGatherHeavy_stands : StandsNamed core1 (Holds 2) exGatherHeavy [m] (fun c => [⟨3, c t⟩]) where
  object := ⟨by decide, by decide, by decide, rfl⟩
  holds := by
    intro c _
    have e : ∀ n, recordNamed core1 exGatherHeavy [m] c n
        = if n = 0 then 3 else if n = 1 then (c t : ℚ) else 0 := fun n => rfl
    refine .inl ⟨by norm_num [weight], ?_, ?_, fun n h1 h2 => ?_⟩
    · rw [e]; norm_num [weight]
    · rw [e]; norm_num [weight, mean, wsum]
    · obtain rfl : n = 2 := by omega
      rw [e]; norm_num [weight, mean, wsum, central]

example := C66_sub (by omega) rfl exGather_stands exGatherHeavy_stands ⟨by decide, by decide, by decide⟩
  (fun c _ => .inr (by norm_num [exGatherL, weight]))
example : dimEntries (addX core1 family1 true exGather [m] exGatherHeavy [m])
    [[(p, 2), (t, 1), (m, 0)], [(p, 2), (t, 1), (m, 1)]]
    = some ([p, t, m], [3, 2, 3], [some (-2), some (-9 / 2)]) := by decide +kernel
example : dimEntries (addX core1 family1 true exGather [m] exGather [m])
    [[(p, 2), (t, 1), (m, 0)]] = some ([p, t, m], [3, 2, 3], [none]) := by decide +kernel
example := C66_add_shape_refused (core := core1) family1 false (obj := exGather) (moms := [m])
  (other := ⟨⟨[m], fun _ => 1⟩, fun _ => 4⟩) (moms' := [m]) (by decide)
example := C66_add_refused (core := core1) family1 true (obj := exGather) (moms := [m])
  (other := ⟨⟨[q, m], fun _ => 1⟩, fun _ => 3⟩) (moms' := [m]) exGather_stands.object
  (.inr ⟨q, by decide, .inr (by decide)⟩)
example := C66_add_refused (core := core1) family1 true (obj := exGather) (moms := [m])
  (other := ⟨⟨[n], fun _ => 1⟩, fun _ => 3⟩) (moms' := [n]) exGather_stands.object
  (.inl ⟨m, by decide, by decide⟩)

example := (C66_result_dims exGather_stands.object).2.1 p (by decide) true b (.inr (by decide))

-- reducing in two steps
example : ∃ arr out, StandsNamed core1 (Holds 2) arr [m] (samplesOverNames exGatherL exGather.size [t]) ∧
    reduceObjX core1 (family1 [arr.size m]) exArgsort arr [m] none (some (some [p])) none none true none false
      false = .ok out ∧
    ResultNamed core1 (Holds 2) out [m] [m] (fun d => if d ∈ [p] then 1 else arr.size d)
      (samplesOverNames exGatherL exGather.size ([p] ++ [t])) := by
  obtain ⟨o1, -, h⟩ := C66_reduce (by omega) rfl exGather_stands exGather_nonneg exArgsort (axis := none)
    (dim := some (some [t])) (ds := [t]) (.inl ⟨rfl, rfl⟩) (by decide) (by decide) (by decide)
    (by decide) true none false false
  obtain ⟨arr, h1, h2, h3, -⟩ := C66_result_is_object (order := 2) (md := m) (by omega) (size := fun d => if d ∈ [t] then 1 else exGather.size d) rfl
    h (by decide) (by decide)
  have hdims : arr.dims = [p, m] := by rw [h2]; decide
  have hp : arr.size p = 3 := h3 p (by decide)
  have hm : arr.size m = 3 := h3 m (by decide)
  obtain ⟨out, e, h4⟩ := C66_reduce (by omega) hm h1 (fun c _ => by
      simp only [samplesOverNames, allCoords, exGather, List.range_succ]
      norm_num [exGatherL, weight]) exArgsort (axis := none)
    (dim := some (some [p])) (ds := [p]) (.inl ⟨rfl, rfl⟩) (by decide) (by decide)
    (fun d hd => by
      rw [List.mem_singleton.1 hd]
      exact mem_valDims.2 ⟨by rw [hdims]; decide, by decide⟩)
    (fun d hd hne => by
      rw [hdims] at hd
      fin_cases hd
      · exact absurd (by decide) hne
      · omega) true none false false
  refine ⟨arr, out, h1, e, ?_⟩
  rw [show dimsReduced arr.dims [p] [m] false false = [m] by rw [hdims]; decide] at h4
  refine resultNamed_congr h4 fun c _ r hr => ?_
  rwa [C66_reduce_steps (fun d hd => by rw [List.mem_singleton.1 hd, hp]; rfl)] at hr
example (c : ExDim → ℕ) := C66_reduce_order (L := exGatherL) exGather.size (List.Perm.swap t p []) (by decide) c

-- naming the dimensions in another order, and asking for the moments in another place, gives the same numbers
example : ∃ out out',
    reduceObjX core1 (family1 [exGather.size m]) exArgsort exGather [m] none (some (some [t, p])) none none true
      none true false = .ok out ∧
    reduceObjX core1 (family1 [exGather.size m]) exArgsort exGather [m] none (some (some [p, t])) none none true
      none false false = .ok out' ∧
    ∀ n ≤ 2, entry out (fun d => if d = m then n else 0) = entry out' (fun d => if d = m then n else 0) := by
  obtain ⟨o, e, h⟩ := C66_reduce (by omega) rfl exGather_stands exGather_nonneg exArgsort (axis := none)
    (dim := some (some [t, p])) (ds := [t, p]) (.inl ⟨rfl, rfl⟩) (by decide) (by decide) (by decide)
    (by decide) true none true false
  obtain ⟨o', e', h'⟩ := C66_reduce (by omega) rfl exGather_stands exGather_nonneg exArgsort (axis := none)
    (dim := some (some [p, t])) (ds := [p, t]) (.inl ⟨rfl, rfl⟩) (by decide) (by decide) (by decide)
    (by decide) true none false false
  refine ⟨o, o', e, e', fun n hn => ?_⟩
  refine C66_same_samples (by omega) (md := m) rfl rfl h h' (fun d hd => ?_) (fun d hd => ?_) (by simpa using hn)
    (C66_reduce_order exGather.size (List.Perm.swap p t []) (by decide) _) ?_
  · rw [show dimsReduced exGather.dims [t, p] [m] true false = [p, m, t] by decide] at hd
    fin_cases hd
    · exact Nat.one_pos
    · change (if m = m then n else 0) < 3
      simp only [if_true]; omega
    · exact Nat.one_pos
  · rw [show dimsReduced exGather.dims [p, t] [m] false false = [m] by decide] at hd
    fin_cases hd
    change (if m = m then n else 0) < 3
    simp only [if_true]; omega
  · simp only [samplesOverNames, allCoords, exGather, List.range_succ]
    norm_num [exGatherL, weight]

example : ∃ out, addX core2 family2 false exGather2 [m, n] (exGather2W 2) [m, n] = .ok out ∧
    ∃ arr : DataArray ExDim ℚ, StandsNamed core2 (Holds2 1 1) arr [m, n]
      (fun c => exGather2L c ++ [⟨2, c p, 2⟩]) := by
  obtain ⟨out, e, h⟩ := C66_add_cov (by omega) (by omega) rfl rfl exGather2_stands exGather2W_stands
    ⟨by decide, by decide, by decide⟩ (fun c _ => .inr (by norm_num [exGather2L, weight2]))
  obtain ⟨arr, h1, -⟩ := C66_result_is_object_cov (by omega) (by omega) (by decide) (m0 := m) (m1 := n)
    (size := exGather2.size) rfl rfl h (by decide) (by decide) (by decide)
  exact ⟨out, e, arr, h1⟩

-- adding in either order gives the same numbers
example : ∃ out out', addX core2 family2 false exGather2 [m, n] (exGather2W 2) [m, n] = .ok out ∧
    addX core2 family2 false (exGather2W 2) [m, n] exGather2 [m, n] = .ok out' ∧
    ∀ i < 3, ∀ a < 2, ∀ b < 2, entry out (fun d => if d = p then i else if d = m then a else b)
      = entry out' (fun d => if d = p then i else if d = m then a else b) := by
  obtain ⟨o, e, h⟩ := C66_add_cov (by omega) (by omega) rfl rfl exGather2_stands exGather2W_stands
    ⟨by decide, by decide, by decide⟩ (fun c _ => .inr (by norm_num [exGather2L, weight2]))
  obtain ⟨o', e', h'⟩ := C66_add_cov (by omega) (by omega) rfl rfl exGather2W_stands exGather2_stands
    ⟨by decide, by decide, by decide⟩ (fun c _ => .inr (by norm_num [exGather2L, weight2]))
  refine ⟨o, o', e, e', fun i hi a ha b hb => ?_⟩
  have hc : ∀ d ∈ [p, m, n], (fun d => if d = p then i else if d = m then a else b) d < exGather2.size d := by
    intro d hd
    fin_cases hd
    · exact hi
    · exact ha
    · exact hb
  refine C66_same_samples_cov (by omega) (by omega) (by decide) (m0 := m) (m1 := n) rfl rfl rfl rfl h h' hc hc
    (Nat.lt_succ_iff.1 ha) (Nat.lt_succ_iff.1 hb) List.perm_append_comm ?_
  norm_num [exGather2L, weight2]

end Examples

end Cmomy
