import Verif.Lemmas.LabelledVals
import Verif.Props.LabelledNd
import Verif.Props.ValsOps

/-!
# C58: labelled values and weights

Labelled values, weights and further values are matched by name, whatever the order of their
dimensions. What an operation gives at named coordinates is what the one-dimensional operation gives
for the samples at these coordinates. `val`, `core` and `fam` are `value1`, `core1`, `family1` for one
variable and `value2`, `core2`, `family2` for two.
-/

set_option linter.unusedSectionVars false

namespace Cmomy

open Spec Axes Labelled
open Nd (core1 core2 core1_ok core2_ok value1 value2 family1 family2)

/-- Names for the examples. -/
inductive ExDim
  | t | p | q | m | n | b
  deriving DecidableEq

open ExDim

/-- Three samples `t` at two places `p`. -/
def exNamedX : DataArray ExDim ℚ where
  dims := [p, t]
  data idx := idx.getD 0 0 + 2 * idx.getD 1 0
  size d := match d with
    | p => 2
    | _ => 3

/-- Weights for samples `t` and a further dimension `q`, stored in another order. -/
def exNamedW : DataArray ExDim ℚ where
  dims := [t, q]
  data idx := 1 + idx.getD 0 0 * idx.getD 1 0
  size d := match d with
    | q => 2
    | _ => 3

/-- Further values with the dimensions in reverse order. -/
def exNamedY : DataArray ExDim ℚ where
  dims := [t, p]
  data idx := (idx.getD 0 0) ^ 2 - idx.getD 1 0
  size d := match d with
    | p => 2
    | _ => 3

/-- The sizes of all dimensions. -/
def exSize : ExDim → ℕ
  | p => 2
  | q => 2
  | _ => 3

theorem exNamed_good1 : GoodLabelled exNamedX [.named exNamedW] t exSize [m] where
  distinct := by decide
  good := by
    intro o ho
    rcases List.mem_cons.1 ho with rfl | ho
    · exact ⟨by decide, by decide, by decide⟩
    · rw [List.mem_singleton.1 ho]
      exact ⟨by decide, by decide, by decide⟩

theorem exNamed_good2 : GoodLabelled exNamedX [.named exNamedW, .named exNamedY] t exSize [m, n] where
  distinct := by decide
  good := by
    intro o ho
    simp only [List.mem_cons, List.not_mem_nil, or_false] at ho
    rcases ho with rfl | rfl | rfl <;> exact ⟨by decide, by decide, by decide⟩

theorem exNamed_goodRep : GoodLabelled exNamedX [.named exNamedW] t exSize [b, m] where
  distinct := by decide
  good := by
    intro o ho
    rcases List.mem_cons.1 ho with rfl | ho
    · exact ⟨by decide, by decide, by decide⟩
    · rw [List.mem_singleton.1 ho]
      exact ⟨by decide, by decide, by decide⟩

/-- A plain array: one number per sample. -/
def exPlain1 : Nd.Arr ℚ := ⟨[3], fun i => 1 / (1 + i 0)⟩

theorem exNamed_goodAlpha :
    GoodLabelled exNamedX [.named exNamedW, .plain exPlain1] t exSize [m] where
  distinct := by decide
  good := by
    intro o ho
    simp only [List.mem_cons, List.not_mem_nil, or_false] at ho
    rcases ho with rfl | rfl | rfl
    · exact ⟨by decide, by decide, by decide⟩
    · exact ⟨by decide, by decide, by decide⟩
    · exact ⟨⟨fun i j h => by simp only [exPlain1] at h ⊢; rw [h 0 (by simp)],
        .inr (.inl ⟨rfl, rfl⟩)⟩, fun h => absurd h (by decide)⟩

/-- Dimensions, sizes and some entries of a result. -/
def dimEntries {α : Type} (r : Py (DataArray ExDim α)) (cs : List (List (ExDim × ℕ))) :
    Option (List ExDim × List ℕ × List α) :=
  match r with
  | .ok y => some (y.dims, y.dims.map y.size,
      cs.map (fun c => entry y (fun d => ((c.find? (fun p => p.1 = d)).map Prod.snd).getD 0)))
  | .error _ => none

variable {δ : Type} [DecidableEq δ]

section

variable {K V M : Type} [Field K] [DecidableEq K]
variable {x : DataArray δ K} {dim : δ} {size : δ → ℕ}

/-- `reduce_vals` of labelled values: the result has all dimensions of values, weight and further
values but `dim`, in order of appearance, then the moment dimensions. Its entry at named coordinates
is that of the moments of the samples which the arrays contribute at these coordinates. -/
theorem C58_reduce_vals (val : List K → V) {core : Nd.Core K M} {fam : List ℕ → Kernel K V M}
    {mom : List ℕ} (hm : mom.length = core.nd) {moms : List δ} (hml : moms.length = core.nd)
    {w : Operand δ K} {ys : List (Operand δ K)} (hy : ys.length + 1 = core.nd)
    (g : GoodLabelled x (w :: ys) dim size moms)
    {axis : Option (Option AxisArg)} {dimArg : Option (Option δ)}
    (hsel : Chosen x.dims [] axis dimArg dim) :
    ∃ y, reduceValsX val core fam mom moms x (w :: ys) axis dimArg = .ok y ∧
      ShowsNamed y (otherDims (.named x :: w :: ys) dim ++ moms) (sizesOfVals size dim 0 moms mom)
        (fun c => ((fam (mom.map (· + 1))).reduceValsFromZero
          (samplesNamed val (otherDims (.named x :: w :: ys) dim) dim (nameFromEnd x dim) (size dim)
            (.named x) w ys c)).map (fun r => core.ent r (moms.map c))) := by
  obtain ⟨y, _, h1, h2, _⟩ := reduceValsX_spec val (fam := fam) hm hml hy g hsel
  exact ⟨y, h1, h2⟩

example : dimEntries (reduceValsX value1 core1 family1 [2] [m] exNamedX [.named exNamedW] none
    (some (some t))) [[(p, 0), (q, 0), (m, 0)], [(p, 1), (q, 1), (m, 0)], [(p, 1), (q, 1), (m, 1)],
      [(p, 1), (q, 1), (m, 2)]]
    = some ([p, q, m], [2, 2, 3], [some 3, some 6, some (11 / 3), some (20 / 9)]) := by
  decide +kernel

example := C58_reduce_vals value1 (core := core1) (fam := family1) (mom := [2]) rfl rfl rfl
  exNamed_good1 (axis := none) (.inl ⟨rfl, rfl⟩)
example := C58_reduce_vals value2 (core := core2) (fam := family2) (mom := [2, 1]) rfl rfl rfl
  exNamed_good2 (axis := none) (.inl ⟨rfl, rfl⟩)

/-- With C01: the numbers are the weight, the mean and the central moments of the samples. -/
theorem C58_reduce_vals_moments [CharZero K] {order : ℕ} (ho : 1 ≤ order) {w : Operand δ K} {md : δ}
    (g : GoodLabelled x [w] dim size [md])
    {axis : Option (Option AxisArg)} {dimArg : Option (Option δ)}
    (hsel : Chosen x.dims [] axis dimArg dim) :
    ∃ y, reduceValsX value1 core1 family1 [order] [md] x [w] axis dimArg = .ok y ∧
      y.dims = otherDims [.named x, w] dim ++ [md] ∧
      ∀ c, (∀ d ∈ otherDims [.named x, w] dim, c d < size d) →
        let number := fun o s => numberNamed (otherDims [.named x, w] dim) dim (nameFromEnd x dim) o c s
        let L := (List.range (size dim)).map (fun s =>
          (⟨number w s, number (.named x) s⟩ : Sample K))
        Admissible L → weight L ≠ 0 → ∃ r, IsMoments order L r ∧ ∀ j ≤ order,
          entry y (Function.update c md j) = some (r j) := by
  obtain ⟨y, h1, h2⟩ := C58_reduce_vals value1 (core := core1) (fam := family1) (mom := [order]) rfl
    (moms := [md]) rfl rfl g hsel
  refine ⟨y, h1, h2.dims_eq, ?_⟩
  intro c hc number L hL hW
  obtain ⟨r, e1, e2⟩ := C01_reduce_vals_exact ho L hL hW
  refine ⟨r, e2, fun j hj => ?_⟩
  have hmd : ∀ d ∈ otherDims [.named x, w] dim, d ≠ md := fun d hd e => by
    have := g.free hd
    simp [e] at this
  have hdm : dim ≠ md := fun e => by
    have := (g.first.2.2 dim g.first.2.1).2
    simp [e] at this
  rw [h2.entry_eq (Function.update c md j) (by
    intro d hd
    rcases List.mem_append.1 hd with hd | hd
    · rw [Function.update_of_ne (hmd d hd)]
      unfold sizesOfVals
      rw [if_neg (mem_otherDims.1 hd).2, if_neg (by simpa using hmd d hd)]
      exact hc d hd
    · obtain rfl : d = md := by simpa using hd
      rw [Function.update_self]
      unfold sizesOfVals
      rw [if_neg fun e => hdm e.symm, if_pos (by simp)]
      simp
      omega)]
  have hs : samplesNamed value1 (otherDims [.named x, w] dim) dim (nameFromEnd x dim) (size dim)
      (.named x) w [] (Function.update c md j) = toVals L := by
    unfold samplesNamed toVals
    rw [List.map_map]
    refine List.map_congr_left fun s _ => ?_
    have hn : ∀ o ∈ [.named x, w], numberNamed (otherDims [.named x, w] dim) dim (nameFromEnd x dim) o
        (Function.update c md j) s = number o s := fun o ho =>
      g.number_congr ho (fun d hd => Function.update_of_ne (hmd d hd) _ _) s
    simp only [value1, List.map_cons, List.map_nil, List.headD_cons, Function.comp_apply]
    rw [hn w (by simp), hn (.named x) (by simp)]
  rw [hs]
  show ((family1 [order + 1]).reduceValsFromZero (toVals L)).map _ = _
  have hf : family1 (K := K) [order + 1] = kernel1 order := by simp [family1]
  rw [hf, e1]
  simp [core1]

example := C58_reduce_vals_moments (order := 3) (by decide) exNamed_good1 (axis := none)
  (.inl ⟨rfl, rfl⟩)

/-- With C02: for two variables the numbers are the comoments of the samples. -/
theorem C58_reduce_vals_comoments [CharZero K] {o0 o1 : ℕ} (h0 : 1 ≤ o0) (h1 : 1 ≤ o1)
    {w y : Operand δ K} {m0 m1 : δ} (g : GoodLabelled x [w, y] dim size [m0, m1])
    {axis : Option (Option AxisArg)} {dimArg : Option (Option δ)}
    (hsel : Chosen x.dims [] axis dimArg dim) :
    ∃ z, reduceValsX value2 core2 family2 [o0, o1] [m0, m1] x [w, y] axis dimArg = .ok z ∧
      z.dims = otherDims [.named x, w, y] dim ++ [m0, m1] ∧
      ∀ c, (∀ d ∈ otherDims [.named x, w, y] dim, c d < size d) →
        let number := fun o s =>
          numberNamed (otherDims [.named x, w, y] dim) dim (nameFromEnd x dim) o c s
        let L := (List.range (size dim)).map (fun s =>
          (⟨number w s, number (.named x) s, number y s⟩ : Sample2 K))
        Admissible2 L → weight2 L ≠ 0 → ∃ r, IsComoments o0 o1 L r ∧ ∀ j ≤ o0, ∀ k ≤ o1,
          entry z (Function.update (Function.update c m0 j) m1 k) = some (r j k) := by
  obtain ⟨z, g1, g2⟩ := C58_reduce_vals value2 (core := core2) (fam := family2) (mom := [o0, o1]) rfl
    (moms := [m0, m1]) rfl rfl g hsel
  refine ⟨z, g1, g2.dims_eq, ?_⟩
  intro c hc number L hL hW
  obtain ⟨r, e1, e2⟩ := C02_reduce_vals_cov_exact h0 h1 L hL hW
  refine ⟨r, e2, fun j hj k hk => ?_⟩
  have hmm : m0 ≠ m1 := by
    have := g.distinct
    simpa using this
  have hmd : ∀ d ∈ otherDims [.named x, w, y] dim, d ≠ m0 ∧ d ≠ m1 := fun d hd => by
    have := g.free hd
    simpa using this
  have hdm : dim ≠ m0 ∧ dim ≠ m1 := by
    have := (g.first.2.2 dim g.first.2.1).2
    simpa using this
  have hne : ∀ d ∈ otherDims [.named x, w, y] dim,
      Function.update (Function.update c m0 j) m1 k d = c d := fun d hd => by
    rw [Function.update_of_ne (hmd d hd).2, Function.update_of_ne (hmd d hd).1]
  rw [g2.entry_eq _ (by
    intro d hd
    rcases List.mem_append.1 hd with hd | hd
    · rw [hne d hd]
      unfold sizesOfVals
      rw [if_neg (mem_otherDims.1 hd).2, if_neg (by simpa using hmd d hd)]
      exact hc d hd
    · have hd' : d = m0 ∨ d = m1 := by simpa using hd
      unfold sizesOfVals
      rw [if_neg (by rcases hd' with rfl | rfl; exacts [hdm.1.symm, hdm.2.symm]), if_pos hd]
      rcases hd' with rfl | rfl
      · rw [Function.update_of_ne hmm, Function.update_self]
        simp
        omega
      · rw [Function.update_self]
        simp [List.idxOf_cons, hmm]
        omega)]
  have hs : samplesNamed value2 (otherDims [.named x, w, y] dim) dim (nameFromEnd x dim) (size dim)
      (.named x) w [y] (Function.update (Function.update c m0 j) m1 k) = toVals2 L := by
    unfold samplesNamed toVals2
    rw [List.map_map]
    refine List.map_congr_left fun s _ => ?_
    have hn : ∀ o ∈ [.named x, w, y], numberNamed (otherDims [.named x, w, y] dim) dim
        (nameFromEnd x dim) o (Function.update (Function.update c m0 j) m1 k) s = number o s :=
      fun o ho => g.number_congr ho hne s
    simp only [value2, List.map_cons, List.map_nil, List.headD_cons, List.tail_cons,
      Function.comp_apply]
    rw [hn w (by simp), hn (.named x) (by simp), hn y (by simp)]
  rw [hs]
  show ((family2 [o0 + 1, o1 + 1]).reduceValsFromZero (toVals2 L)).map _ = _
  have hf : family2 (K := K) [o0 + 1, o1 + 1] = kernel2 o0 o1 := by simp [family2]
  rw [hf, e1]
  simp [core2, Function.update_of_ne hmm]

example := C58_reduce_vals_comoments (o0 := 2) (o1 := 1) (by decide) (by decide) exNamed_good2
  (axis := none) (.inl ⟨rfl, rfl⟩)

/-- `resample_vals`: the replicates `rep` take the place of `dim` in the dimensions of the values;
dimensions that only the other arrays have come first, the moment dimensions last. With
`axes_to_end` the replicates come right before the moment dimensions. -/
theorem C58_resample_vals (val : List K → V) {core : Nd.Core K M} {fam : List ℕ → Kernel K V M}
    {mom : List ℕ} (hm : mom.length = core.nd) {moms : List δ} (hml : moms.length = core.nd)
    {w : Operand δ K} {ys : List (Operand δ K)} (hy : ys.length + 1 = core.nd) {rep : δ}
    (g : GoodLabelled x (w :: ys) dim size (rep :: moms)) (freq : List (List K))
    {axis : Option (Option AxisArg)} {dimArg : Option (Option δ)}
    (hsel : Chosen x.dims [] axis dimArg dim) (orderCF axesToEnd : Bool) :
    ∃ y, resampleValsX val core fam mom moms freq (size dim) x (w :: ys) axis dimArg rep orderCF
        axesToEnd = .ok y ∧
      ShowsNamed y (dimsOfVals x (otherDims (.named x :: w :: ys) dim) dim rep moms axesToEnd)
        (sizesOfVals size rep freq.length moms mom)
        (fun c => (((fam (mom.map (· + 1))).resampleVals freq
          (samplesNamed val (otherDims (.named x :: w :: ys) dim) dim (nameFromEnd x dim) (size dim)
            (.named x) w ys c))[c rep]?).join.map (fun r => core.ent r (moms.map c))) :=
  resampleValsX_spec val hm hml hy g freq hsel orderCF axesToEnd

example : dimEntries (resampleValsX value1 core1 family1 [2] [m] [[1, 1, 1], [0, 3, 0]] 3 exNamedX
    [.named exNamedW] none (some (some t)) b false false)
    [[(p, 1), (q, 1), (b, 0), (m, 0)], [(p, 1), (q, 1), (b, 0), (m, 1)], [(p, 1), (q, 1), (b, 1)],
      [(p, 1), (q, 1), (b, 1), (m, 1)]]
    = some ([q, p, b, m], [2, 2, 2, 3], [some 6, some (11 / 3), some 6, some 3]) := by
  decide +kernel

example := C58_resample_vals value1 (core := core1) (fam := family1) (mom := [2]) rfl rfl rfl
  exNamed_goodRep [[1, 1, 1], [0, 3, 0]] (axis := none) (.inl ⟨rfl, rfl⟩) true false

/-- `jackknife_vals`: likewise, with the left-out samples on `dim` or on its new name. -/
theorem C58_jackknife_vals (val : List K → V) {core : Nd.Core K M} (hc : core.Ok)
    {fam : List ℕ → Kernel K V M}
    {mom : List ℕ} (hm : mom.length = core.nd) {moms : List δ} (hml : moms.length = core.nd)
    {w : Operand δ K} {ys : List (Operand δ K)} (hy : ys.length + 1 = core.nd)
    (g : GoodLabelled x (w :: ys) dim size moms)
    {axis : Option (Option AxisArg)} {dimArg : Option (Option δ)}
    (hsel : Chosen x.dims [] axis dimArg dim) (rep : Option δ)
    (hrep : ∀ d, rep = some d → d = dim ∨ d ∉ otherDims (.named x :: w :: ys) dim ++ moms)
    (orderCF axesToEnd : Bool) :
    ∃ y, jackknifeValsX val core fam mom moms x (w :: ys) axis dimArg rep orderCF axesToEnd = .ok y ∧
      ShowsNamed y
        (dimsOfVals x (otherDims (.named x :: w :: ys) dim) dim (rep.getD dim) moms axesToEnd)
        (sizesOfVals size (rep.getD dim) (size dim) moms mom)
        (fun c => (((fam (mom.map (· + 1))).jackknifeVals
          (samplesNamed val (otherDims (.named x :: w :: ys) dim) dim (nameFromEnd x dim) (size dim)
            (.named x) w ys c)).bind (fun rows => (rows[c (rep.getD dim)]?).join)).map
            (fun r => core.ent r (moms.map c))) :=
  jackknifeValsX_spec val hc hm hml hy g hsel rep hrep orderCF axesToEnd

example : dimEntries (jackknifeValsX value1 core1 family1 [2] [m] exNamedX [.named exNamedW] none
    (some (some t)) (some b) false true)
    [[(p, 1), (q, 1), (b, 0), (m, 0)], [(p, 1), (q, 1), (b, 0), (m, 1)], [(p, 1), (q, 1), (b, 2)],
      [(p, 1), (q, 1), (b, 2), (m, 1)]]
    = some ([p, q, b, m], [2, 2, 3, 3], [some 5, some (21 / 5), some 3, some (7 / 3)]) := by
  decide +kernel

example := C58_jackknife_vals value1 core1_ok (fam := family1) (mom := [2]) rfl rfl rfl
  exNamed_good1 (axis := none) (.inl ⟨rfl, rfl⟩) (some b) (by intro _ h; cases h; decide) true false

/-! ### Weights and further values without names -/

/-- A number counts for all samples; one number per sample counts for all coordinates. -/
theorem C58_plain_small (loop : List δ) (dim : δ) (fe : ℕ) (a : Nd.Arr K) (c : δ → ℕ) (s : ℕ) :
    (a.shape.length = 0 → numberNamed loop dim fe (.plain a) c s = a.get (fun _ => 0)) ∧
    (a.shape.length = 1 → numberNamed loop dim fe (.plain a) c s = a.get (fun _ => s)) := by
  constructor <;> intro h <;> simp [numberNamed, operandAt, h]

example : dimEntries (reduceValsX value1 core1 family1 [2] [m] exNamedX [.plain exPlain1] none
    (some (some t))) [[(p, 0)], [(p, 1)], [(p, 0), (m, 1)], [(p, 1), (m, 1)]]
    = some ([p, m], [2, 3], [some (11 / 6), some (11 / 6), some (14 / 11), some (25 / 11)]) := by
  decide +kernel

/-- An array with the shape of the values counts as if it had their names, as long as the labelled
arrays have no dimensions that the values do not have. -/
theorem C58_plain_same_shape {others : List (Operand δ K)} {reserved : List δ}
    (g : GoodLabelled x others dim size reserved)
    (hsame : ∀ o ∈ others, ∀ d ∈ operandDims o, d ∈ x.dims) {a : Nd.Arr K} (hp : a.Proper)
    (h2 : 2 ≤ x.dims.length) (ha : a.shape = x.dims.map size) {c : δ → ℕ}
    (hc : ∀ d ∈ x.dims, c d < size d) (s : ℕ) :
    numberNamed (otherDims (.named x :: others) dim) dim (nameFromEnd x dim) (.plain a) c s
      = numberNamed (otherDims (.named x :: others) dim) dim (nameFromEnd x dim)
          (.named (DataArray.ofNd x.dims a)) c s := by
  obtain ⟨hx1, hx2, -⟩ := g.first
  have hl := assumedDims_same hx1 hx2 hsame
  have hlen : (otherDims (.named x :: others) dim).length + 1 = x.dims.length := by
    rw [← hl]
    have := g.fe
    simp [assumedDims]
    omega
  have hal : a.shape.length = x.dims.length := by rw [ha, List.length_map]
  have hfe : x.dims.length - nameFromEnd x dim = x.dims.idxOf dim := by
    have := List.idxOf_lt_length_iff.2 hx2
    unfold nameFromEnd
    omega
  show operandAt a _ _ _ _ = entry (DataArray.ofNd x.dims a) _
  rw [ofNd_entry, hl, hlen, hfe]
  unfold operandAt
  rw [if_neg (by omega), if_neg (by omega), hal, Nat.sub_self]
  refine hp _ _ fun q hq => ?_
  have hq' : q < x.dims.length := by omega
  rw [Nat.add_zero]
  unfold pos
  rw [List.getElem?_eq_getElem hq']
  simp only [Option.map_some, Option.getD_some]
  by_cases h : q = x.dims.idxOf dim
  · subst h
    rw [if_pos rfl, List.getElem_idxOf, Function.update_self]
  · have hne : x.dims[q] ≠ dim := fun e => h (by rw [← e, hx1.idxOf_getElem])
    rw [if_neg h, Function.update_of_ne hne]
    have hax : axisSize a q = size x.dims[q] := by
      unfold axisSize
      rw [ha, List.getD_eq_getElem _ _ (by simpa using hq'), List.getElem_map]
    rw [hax]
    have := hc x.dims[q] (List.getElem_mem hq')
    split_ifs with h1
    · rw [h1] at this
      omega
    · unfold coordsAlong
      rw [List.getElem?_eq_getElem hq']
      rfl

/-- A plain array with the shape of the values `exNamedX`. -/
def exPlain2 : Nd.Arr ℚ := ⟨[2, 3], fun i => 1 + 3 * i 0 + i 1⟩

-- as if it had the names `p` and `t`
example : dimEntries (reduceValsX value1 core1 family1 [1] [m] exNamedX [.plain exPlain2] none
    (some (some t))) [[(p, 0)], [(p, 1)]] = some ([p, m], [2, 2], [some 6, some 15]) := by
  decide +kernel
example : dimEntries (reduceValsX value1 core1 family1 [1] [m] exNamedX
    [.named (DataArray.ofNd [p, t] exPlain2)] none
    (some (some t))) [[(p, 0)], [(p, 1)]] = some ([p, m], [2, 2], [some 6, some 15]) := by
  decide +kernel

/-- But when another labelled array has a further dimension, an array without names is matched with
that dimension instead: an array with two axes, whose samples come last, varies along the last of all
other dimensions, `last`, whether the values have it or not. -/
theorem C58_plain_shifted (l : List δ) (last dim : δ) {a : Nd.Arr K} (hp : a.Proper)
    (h : a.shape.length = 2) (c : δ → ℕ) (s : ℕ) :
    numberNamed (l ++ [last]) dim 1 (.plain a) c s
      = a.get (fun q => if q = 0 then (if axisSize a 0 = 1 then 0 else c last) else s) := by
  show operandAt a _ _ _ _ = _
  unfold operandAt
  rw [if_neg (by omega), if_neg (by omega)]
  refine hp _ _ fun q hq => ?_
  have hl : (l ++ [last]).length = l.length + 1 := by simp
  rw [h] at hq ⊢
  rw [hl]
  have ha : coordsAlong (assumedDims (l ++ [last]) dim 1) c (l.length) = c last := by
    unfold coordsAlong assumedDims
    rw [hl, Nat.add_sub_cancel, ← hl, List.take_length, List.drop_length,
      List.getElem?_append_left (by simp), List.getElem?_append_right (le_refl _), Nat.sub_self]
    rfl
  obtain rfl | rfl : q = 0 ∨ q = 1 := by omega
  · rw [if_pos rfl, if_neg (by omega)]
    split_ifs
    · rfl
    · rw [show 0 + (l.length + 1 + 1 - 2) = l.length by omega, ha]
  · rw [if_pos (by omega), if_neg (by omega)]

-- the weight brings the dimension `q`: `y`, of the shape of `x`, varies along `q`, and not along `p`
example : dimEntries (reduceValsX value2 core2 family2 [1, 1] [m, n] exNamedX
    [.named exNamedW, .plain exPlain2] none (some (some t)))
    [[(n, 1)], [(n, 1), (q, 1)], [(n, 1), (p, 1)]]
    = some ([p, q, m, n], [2, 2, 2, 2], [some 2, some (16 / 3), some 2]) := by decide +kernel
-- with a weight without further dimensions it varies along `p`
example : dimEntries (reduceValsX value2 core2 family2 [1, 1] [m, n] exNamedX
    [.plain exPlain1, .plain exPlain2] none (some (some t)))
    [[(n, 1)], [(n, 1), (p, 1)]]
    = some ([p, m, n], [2, 2, 2], [some (18 / 11), some (51 / 11)]) := by decide +kernel

/-! ### The order of the dimensions does not matter -/

/-- Operands that differ in the order of their dimensions only contribute the same numbers. By the
theorems above, the entries of the results are then the same. -/
theorem C58_order (loop : List δ) (dim : δ) (fe : ℕ) {y z : DataArray δ K} (h : SameArray y z)
    (c : δ → ℕ) (s : ℕ) :
    numberNamed loop dim fe (.named y) c s = numberNamed loop dim fe (.named z) c s :=
  h.entry_eq _

-- values whose dimensions are stored in the other order
example : dimEntries (reduceValsX value1 core1 family1 [2] [m]
    { dims := [t, p], data := fun idx => exNamedX.data idx.reverse, size := exNamedX.size }
    [.named exNamedW] none (some (some t)))
    [[(p, 0), (q, 0), (m, 0)], [(p, 1), (q, 1), (m, 0)], [(p, 1), (q, 1), (m, 1)],
      [(p, 1), (q, 1), (m, 2)]]
    = some ([p, q, m], [2, 2, 3], [some 3, some 6, some (11 / 3), some (20 / 9)]) := by
  decide +kernel

/-! ### Errors -/

omit [Field K] [DecidableEq K] in
private theorem applyVals_mismatched {others : List (Operand δ K)} {f : Operand δ K → Operand δ K}
    (hf : ∀ y, f (.named y) = .named y) {extra : List (Frame δ)} {extraCore outCore reserved : List δ}
    (hr : ∀ d, d ≠ dim → (d ∈ reserved ↔ d ∈ extraCore ++ outCore)) {β : Type}
    (g : List δ → List (Nd.Arr K) → Py (Nd.Arr β)) (h : Mismatched x others dim reserved) :
    applyVals (.named x :: others.map f) extra dim extraCore outCore g = .error .valueError := by
  have hmem : ∀ y, Operand.named y ∈ Operand.named x :: others →
      Operand.named y ∈ Operand.named x :: others.map f := fun y hy => by
    rcases List.mem_cons.1 hy with e | hy
    · rw [e]; exact List.mem_cons_self ..
    · exact List.mem_cons_of_mem _ (List.mem_map.2 ⟨.named y, hy, hf y⟩)
  refine applyVals_error _ ?_
  rcases h with ⟨y, hy, h⟩ | ⟨d, hd, h⟩ | ⟨y, z, hy, hz, h⟩
  · exact .inl ⟨y, hmem y (List.mem_cons_of_mem _ hy),
      h.imp id fun ⟨d, h1, h2, h3⟩ => ⟨d, h1, h2, (hr d h2).1 h3⟩⟩
  · exact .inl ⟨x, List.mem_cons_self .., .inr ⟨d, hd, h.1, (hr d h.1).1 h.2⟩⟩
  · exact .inr ⟨y, z, hmem y hy, hmem z hz, h⟩

/-- The errors of `reduce_vals`, `resample_vals` and `jackknife_vals`: a wrong number of arrays;
labelled arrays that do not match. -/
theorem C58_errors (val : List K → V) {core : Nd.Core K M} {fam : List ℕ → Kernel K V M}
    {mom : List ℕ} {moms : List δ} {others : List (Operand δ K)} (hx : x.dims.Nodup)
    (hdim : dim ∈ x.dims) {axis : Option (Option AxisArg)} {dimArg : Option (Option δ)}
    (hsel : Chosen x.dims [] axis dimArg dim) (freq : List (List K)) (nsamp : ℕ) (rep : δ)
    (newName : Option δ) (orderCF axesToEnd : Bool) :
    (others.length ≠ core.nd →
      reduceValsX val core fam mom moms x others axis dimArg = .error .valueError ∧
      resampleValsX val core fam mom moms freq nsamp x others axis dimArg rep orderCF axesToEnd
        = .error .valueError ∧
      jackknifeValsX val core fam mom moms x others axis dimArg newName orderCF axesToEnd
        = .error .valueError) ∧
    (others.length = core.nd →
      (∀ a, .plain a ∈ others → Usable a (nameFromEnd x dim) (x.size dim)) →
      (Mismatched x others dim moms →
        reduceValsX val core fam mom moms x others axis dimArg = .error .valueError ∧
        jackknifeValsX val core fam mom moms x others axis dimArg newName orderCF axesToEnd
          = .error .valueError) ∧
      (Mismatched x others dim (rep :: moms) →
        resampleValsX val core fam mom moms freq nsamp x others axis dimArg rep orderCF axesToEnd
          = .error .valueError)) := by
  refine ⟨fun h => ?_, fun hn hu => ⟨fun hbad => ?_, fun hbad => ?_⟩⟩
  · have hp : xprepareValues x others (core.nd + 1) axis dimArg = .error .valueError := by
      unfold xprepareValues
      rw [if_pos (by omega)]
    refine ⟨?_, ?_, ?_⟩
    · unfold reduceValsX; rw [hp]; rfl
    · unfold resampleValsX; rw [hp]; rfl
    · unfold jackknifeValsX reduceValsX; rw [hp]; rfl
  · have hr : reduceValsX val core fam mom moms x others axis dimArg = .error .valueError := by
      unfold reduceValsX
      rw [xprepareValues_ok (by omega) hx hdim hsel hu, bind_ok]
      exact applyVals_mismatched (fun _ => rfl) (by simp) _ hbad
    refine ⟨hr, ?_⟩
    unfold jackknifeValsX
    rw [hr]
    rfl
  · unfold resampleValsX
    rw [xprepareValues_ok (by omega) hx hdim hsel hu, bind_ok]
    dsimp only
    rw [applyVals_mismatched (fun _ => rfl) (fun d hd => by simp [hd]) _ hbad]
    rfl

-- a weight with the moment dimension, one without the sample dimension, one with fewer samples
example : reduceValsX value1 core1 family1 [2] [p] exNamedX [.named exNamedW] none (some (some t))
    = .error .valueError :=
  (((C58_errors value1 (by decide) (by decide) (.inl ⟨rfl, rfl⟩) [] 0 b none false false).2 rfl
    (by simp)).1 <|
    (.inr (.inl ⟨p, by decide, by decide, by decide⟩))).1
example : reduceValsX value1 core1 family1 [2] [m] exNamedX [.named exNamedW] none (some (some p))
    = .error .valueError :=
  (((C58_errors value1 (by decide) (by decide) (.inl ⟨rfl, rfl⟩) [] 0 b none false false).2 rfl
    (by simp)).1 <|
    (.inl ⟨exNamedW, by simp, .inl (by decide)⟩)).1
example : reduceValsX value1 core1 family1 [2] [m] exNamedX
    [.named { exNamedW with size := fun _ => 2 }] none (some (some t)) = .error .valueError :=
  (((C58_errors value1 (by decide) (by decide) (.inl ⟨rfl, rfl⟩) [] 0 b none false false).2 rfl
    (by simp)).1 <|
    (.inr (.inr ⟨exNamedX, _, by simp, List.mem_cons_of_mem _ (List.mem_cons_self ..),
      t, by decide, by decide, by decide⟩))).1
-- the new name of a resampled dimension must not occur
example : resampleValsX value1 core1 family1 [2] [m] [[1, 1, 1]] 3 exNamedX [.named exNamedW] none
    (some (some t)) q false false = .error .valueError :=
  ((C58_errors value1 (by decide) (by decide) (.inl ⟨rfl, rfl⟩) _ _ q none false false).2 rfl
    (by simp)).2 (.inl ⟨exNamedW, by simp, .inr ⟨q, by decide, by decide, by decide⟩⟩)

end

section Ordered

variable {K V M : Type} [Field K] [LinearOrder K] [IsStrictOrderedRing K]
variable {x : DataArray δ K} {dim : δ} {size : δ → ℕ}

/-- `rolling_vals`, centred or not: wherever the one-dimensional rolling average of the samples is
defined, the entries are those of its rows, a missing row being `nan`, except that
`zero_missing_weights` makes its weight zero. -/
theorem C58_rolling_vals (val : List K → V) {core : Nd.Core K M} {fam : List ℕ → Kernel K V M}
    {mom : List ℕ} (hm : mom.length = core.nd) {moms : List δ} (hml : moms.length = core.nd)
    (window : ℕ) (minPeriods : Option ℤ) (center zeroMissing : Bool)
    {w : Operand δ K} {ys : List (Operand δ K)} (hy : ys.length + 1 = core.nd)
    (g : GoodLabelled x (w :: ys) dim size moms)
    {axis : Option (Option AxisArg)} {dimArg : Option (Option δ)}
    (hsel : Chosen x.dims [] axis dimArg dim) (orderCF axesToEnd : Bool) :
    ∃ y, rollingValsX val core fam mom moms window minPeriods center zeroMissing x (w :: ys) axis
        dimArg orderCF axesToEnd = .ok y ∧
      y.dims = dimsOfVals x (otherDims (.named x :: w :: ys) dim) dim dim moms axesToEnd ∧
      (∀ d ∈ y.dims, y.size d = sizesOfVals size dim (size dim) moms mom d) ∧
      ∀ c, (∀ d ∈ y.dims, c d < y.size d) →
        ∀ rows, (fam (mom.map (· + 1))).rollingVals (val (List.replicate core.nd 0)) window
            minPeriods center (samplesNamed val (otherDims (.named x :: w :: ys) dim) dim
              (nameFromEnd x dim) (size dim) (.named x) w ys c) = some rows →
          entry y c =
            match (rows[c dim]?).join with
            | some r => some (core.ent r (moms.map c))
            | none => if zeroMissing = true ∧ ∀ d ∈ moms, c d = 0 then some 0 else none := by
  obtain ⟨y, h1, h2⟩ := rollingValsX_spec val (fam := fam) hm hml window minPeriods center
    zeroMissing hy g hsel orderCF axesToEnd
  refine ⟨y, h1, h2.dims_eq, fun d hd => h2.size_eq d (h2.dims_eq ▸ hd), fun c hc rows hrows => ?_⟩
  rw [h2.entry_eq c fun d hd => by
    rw [← h2.size_eq d hd]
    exact hc d (h2.dims_eq ▸ hd)]
  beta_reduce
  rw [hrows]
  simp only [Option.bind_some]
  unfold Nd.zeroWeight
  cases (rows[c dim]?).join with
  | some r => exact if_neg (by simp)
  | none => simp

example : dimEntries (rollingValsX value1 core1 family1 [2] [m] 2 none false true exNamedX
    [.named exNamedW] none (some (some t)) false false)
    [[(p, 1), (q, 1), (t, 0), (m, 0)], [(p, 1), (q, 1), (t, 0), (m, 1)], [(p, 1), (q, 1), (t, 2)],
      [(p, 1), (q, 1), (t, 2), (m, 1)]]
    = some ([q, p, t, m], [2, 2, 3, 3], [some 0, none, some 5, some (21 / 5)]) := by
  decide +kernel

example := C58_rolling_vals value1 (core := core1) (fam := family1) (mom := [2]) rfl rfl 2 (some 1)
  true true rfl exNamed_good1 (axis := none) (.inl ⟨rfl, rfl⟩) true false
example := C58_rolling_vals value2 (core := core2) (fam := family2) (mom := [2, 1]) rfl rfl 3 none
  false false rfl exNamed_good2 (axis := none) (.inl ⟨rfl, rfl⟩) false true

/-- `rolling_exp_vals`: likewise, with decay constants matched by name or by position; all their
dimensions have to occur in values, weight or further values. -/
theorem C58_rolling_exp_vals (val : List K → V) {core : Nd.Core K M} {fam : List ℕ → Kernel K V M}
    {mom : List ℕ} (hm : mom.length = core.nd) {moms : List δ} (hml : moms.length = core.nd)
    (adjust : Bool) (minPeriods : Option ℤ) (zeroMissing : Bool)
    {w alpha : Operand δ K} {ys : List (Operand δ K)} (hy : ys.length + 1 = core.nd)
    (g : GoodLabelled x (w :: alpha :: ys) dim size moms)
    (hal : ∀ d ∈ operandDims alpha, ∃ o ∈ .named x :: w :: ys, d ∈ operandDims o)
    {axis : Option (Option AxisArg)} {dimArg : Option (Option δ)}
    (hsel : Chosen x.dims [] axis dimArg dim) (orderCF axesToEnd : Bool) :
    ∃ y, rollingExpValsX val core fam mom moms adjust minPeriods zeroMissing x w alpha ys axis dimArg
        orderCF axesToEnd = .ok y ∧
      y.dims = dimsOfVals x (otherDims (.named x :: w :: alpha :: ys) dim) dim dim moms axesToEnd ∧
      (∀ d ∈ y.dims, y.size d = sizesOfVals size dim (size dim) moms mom d) ∧
      ∀ c, (∀ d ∈ y.dims, c d < y.size d) →
        ∀ rows, (fam (mom.map (· + 1))).rollingExpVals adjust minPeriods
            ((List.range (size dim)).map (numberNamed (otherDims (.named x :: w :: alpha :: ys) dim) dim
              (nameFromEnd x dim) alpha c))
            (samplesNamed val (otherDims (.named x :: w :: alpha :: ys) dim) dim
              (nameFromEnd x dim) (size dim) (.named x) w ys c) = some rows →
          entry y c =
            match (rows[c dim]?).join with
            | some r => some (core.ent r (moms.map c))
            | none => if zeroMissing = true ∧ ∀ d ∈ moms, c d = 0 then some 0 else none := by
  obtain ⟨y, h1, h2⟩ := rollingExpValsX_spec val (fam := fam) hm hml adjust minPeriods
    zeroMissing hy g hal hsel orderCF axesToEnd
  refine ⟨y, h1, h2.dims_eq, fun d hd => h2.size_eq d (h2.dims_eq ▸ hd), fun c hc rows hrows => ?_⟩
  rw [h2.entry_eq c fun d hd => by
    rw [← h2.size_eq d hd]
    exact hc d (h2.dims_eq ▸ hd)]
  beta_reduce
  rw [hrows]
  simp only [Option.bind_some]
  unfold Nd.zeroWeight
  cases (rows[c dim]?).join with
  | some r => exact if_neg (by simp)
  | none => simp

example : dimEntries (rollingExpValsX value1 core1 family1 [2] [m] true none false exNamedX
    (.named exNamedW) (.plain exPlain1) [] none (some (some t)) false true)
    [[(p, 1), (q, 1), (t, 0), (m, 1)], [(p, 1), (q, 1), (t, 1), (m, 0)],
      [(p, 1), (q, 1), (t, 1), (m, 1)]]
    = some ([p, q, t, m], [2, 2, 3, 3], [some 1, some (5 / 2), some (13 / 5)]) := by
  decide +kernel

example := C58_rolling_exp_vals value1 (core := core1) (fam := family1) (mom := [2]) rfl rfl true none
  true rfl exNamed_goodAlpha (by simp [operandDims]) (axis := none) (.inl ⟨rfl, rfl⟩) true false

/-- The errors of `rolling_vals` and `rolling_exp_vals`. -/
theorem C58_rolling_errors (val : List K → V) {core : Nd.Core K M} {fam : List ℕ → Kernel K V M}
    {mom : List ℕ} {moms : List δ} {others : List (Operand δ K)} {w alpha : Operand δ K}
    {ys : List (Operand δ K)} (hx : x.dims.Nodup) (hdim : dim ∈ x.dims)
    {axis : Option (Option AxisArg)} {dimArg : Option (Option δ)}
    (hsel : Chosen x.dims [] axis dimArg dim) (window : ℕ) (adjust : Bool) (minPeriods : Option ℤ)
    (center zeroMissing orderCF axesToEnd : Bool) :
    (others.length ≠ core.nd ∨ (others.length = core.nd ∧
        (∀ a, .plain a ∈ others → Usable a (nameFromEnd x dim) (x.size dim)) ∧
        Mismatched x others dim moms) →
      rollingValsX val core fam mom moms window minPeriods center zeroMissing x others axis dimArg
        orderCF axesToEnd = .error .valueError) ∧
    (ys.length + 1 ≠ core.nd ∨ (ys.length + 1 = core.nd ∧
        (∀ a, .plain a ∈ w :: alpha :: ys → Usable a (nameFromEnd x dim) (x.size dim)) ∧
        Mismatched x (w :: alpha :: ys) dim moms) →
      rollingExpValsX val core fam mom moms adjust minPeriods zeroMissing x w alpha ys axis dimArg
        orderCF axesToEnd = .error .valueError) := by
  constructor
  · rintro (h | ⟨hn, hu, hbad⟩)
    · unfold rollingValsX xprepareValues
      rw [if_pos (by omega)]
      rfl
    · unfold rollingValsX
      rw [xprepareValues_ok (by omega) hx hdim hsel hu, bind_ok]
      dsimp only
      rw [applyVals_mismatched (fun _ => rfl) (fun d hd => by simp [hd]) _ hbad]
      rfl
  · rintro (h | ⟨hn, hu, hbad⟩)
    · unfold rollingExpValsX xprepareValues
      rw [if_pos (by simp only [List.length_cons]; omega)]
      rfl
    · unfold rollingExpValsX
      rw [xprepareValues_ok (by simp only [List.length_cons]; omega) hx hdim hsel hu, bind_ok]
      dsimp only
      rw [applyVals_mismatched (fun _ => rfl) (fun d hd => by simp [hd]) _ hbad]
      rfl

-- a weight without the sample dimension; one array too many
example : rollingValsX value1 core1 family1 [2] [m] 2 none false true exNamedX [.named exNamedW] none
    (some (some p)) false false = .error .valueError :=
  (C58_rolling_errors value1 (w := .named exNamedW) (alpha := .named exNamedW) (ys := []) (by decide)
    (by decide) (.inl ⟨rfl, rfl⟩) _ true _ _ _ _ _).1
    (.inr ⟨rfl, by simp, .inl ⟨exNamedW, by simp, .inl (by decide)⟩⟩)
example : rollingExpValsX value1 core1 family1 [2] [m] true none true exNamedX (.named exNamedW)
    (.named exNamedW) [.named exNamedY] none (some (some t)) false false = .error .valueError :=
  (C58_rolling_errors value1 (others := []) (by decide) (by decide) (.inl ⟨rfl, rfl⟩) 1 _ _ true _ _
    _).2 (.inl (by decide))

end Ordered

end Cmomy
