{
 "C01": {
  "note": "Exact field arithmetic; rounding is outside the model. A zero total is covered separately (C01_zero_total)."
 },
 "C09": {
  "note": "none = a division by zero occurred; the kernels' numeric behaviour after that is not modelled."
 },
 "C25": {
  "note": "Weights must be non-negative: C25_mixed_signs_wrong shows the reset branch is wrong for mixed signs."
 },
 "C29": {
  "note": "alpha = 0 at the first valid sample divides by zero (C29_alpha_zero_undefined)."
 }
}