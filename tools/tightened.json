{
 "B37": [
  "C41_inverse_exact"
 ],
 "V16": [
  "C29_distance",
  "C29_metric"
 ],
 "V25": [
  "C29_distance"
 ],
 "I13": [
  "C19_gt_scalar",
  "C19_eq_scalar",
  "C19_none_scalar"
 ],
 "A2cf75de7": [
  "C99_infinite"
 ]
}