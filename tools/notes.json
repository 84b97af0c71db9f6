{
 "C06": [
  "partial",
  "The full statement is false of the code for segments with 0 < |v| <= min(1e-20 max|v|, 1e-8): refuted by C06_not_unit_counterexample; C06_directions_exact is the exact behaviour for every segment."
 ],
 "C07": [
  "partial",
  "Proved for every segment above the tolerance of C06 (and for idle segments); false below it (C07_counterexample); C07_evolution_exact is the exact behaviour of every segment."
 ],
 "C11": [
  "partial",
  "The claim is false of the code: C11_not_every_control_exportable; exact success condition C11_csv_succeeds_iff."
 ],
 "C14": [
  "partial",
  "False when the largest detuning is 0 and another one is negative: C14_detunings_lost; proved for all other controls; C14_str_exact is the exact text of every control."
 ],
 "C29": [
  "partial",
  "All proved but 'every segment is at least minimum_segment_duration long', which is false of the code (C29_too_short): segments are never longer and shorter unless the ratio is an integer."
 ],
 "C42": [
  "partial",
  "True for orders 1 and 2 (C42_low_orders_partial); false of the code for every order of at least 3 (C42_false); C42_exact states exactly what the code builds at every order; C42_odd_end and C42_even_end give the last pulse (a twentieth of the duration is left without pulses at high orders)."
 ],
 "C41": [
  "proved",
  "Stated with the pulse at the end left out, as the code does for odd orders (C41_end)."
 ],
 "C47": [
  "partial",
  "Exactly true without overlaps (C47_duration_exact_partial, an iff for sequences longer than 1e-8); false in general (C47_false); bounds for all in C47_duration_bounds."
 ],
 "C49": [
  "partial",
  "C49_evolution_partial for pure pulses outside numpy's dead zone in sequences longer than 1e-8; false otherwise (C49_false, C52_false, C53_false); C49_evolution_exact is the exact behaviour of every conversion longer than 1e-8."
 ],
 "C52": [
  "partial",
  "False for negative detuning rotations (C52_false); proved for positive ones."
 ],
 "C53": [
  "partial",
  "False for sequences of at most 1e-8 (C53_false, C53_short_is_free); C53_scaling_partial proves it above."
 ],
 "C114": [
  "partial",
  "False of the code in three cases, each refuted: a negative rotation with the controls that have no table of angles (C114_negative_rotation), a Rabi rate too small for the duration of a modulated Gaussian (C114_gaussian_duration), export_to_file of a sequence that cannot be converted (C114_sequence_file). Proved for all other calls."
 ]
}