{
 "claims": [
  {
   "property": "C01",
   "status": "proved",
   "theorems": [
    "Verif.Window.C01_approx_int",
    "Verif.Window.C01_approx_int_order",
    "Verif.Window.C01_approx_int_translate"
   ],
   "note": "Floats are modelled as rationals."
  },
  {
   "property": "C02",
   "status": "proved",
   "theorems": [
    "Verif.Window.C02_arange",
    "Verif.Window.C02_arange_le"
   ],
   "note": "Positive steps and tolerances; for the exact list the step is at least twice the tolerance. Other steps: C210. Rounded times: C194."
  },
  {
   "property": "C03",
   "status": "proved",
   "theorems": [
    "Verif.Window.C03_slider_full"
   ],
   "note": "The shift is at least twice the tolerance. Other shifts: C210."
  },
  {
   "property": "C04",
   "status": "proved",
   "theorems": [
    "Verif.Window.C04_slider_partials_allowed"
   ],
   "note": ""
  },
  {
   "property": "C05",
   "status": "proved",
   "theorems": [
    "Verif.Window.C05_basic_subwindow"
   ],
   "note": ""
  },
  {
   "property": "C06",
   "status": "proved",
   "theorems": [
    "Verif.Window.C06_array_subwindow"
   ],
   "note": "Rates up to 1 / (2 * tolerance), i.e. 500 kHz."
  },
  {
   "property": "C07",
   "status": "proved",
   "theorems": [
    "Verif.Window.C07_array_history",
    "Verif.Window.C07_wav_history",
    "Verif.Window.C07_times"
   ],
   "note": ""
  },
  {
   "property": "C08",
   "status": "proved",
   "theorems": [
    "Verif.Window.C08_wav_refines_array"
   ],
   "note": "The two behaviours differ, as stated, only on ranges shorter than one sample."
  },
  {
   "property": "C09",
   "status": "proved",
   "theorems": [
    "Verif.Window.C09_nested_subwindow"
   ],
   "note": ""
  },
  {
   "property": "C10",
   "status": "proved",
   "theorems": [
    "Verif.Window.C10_concat_init"
   ],
   "note": ""
  },
  {
   "property": "C11",
   "status": "proved",
   "theorems": [
    "Verif.Window.C11_align"
   ],
   "note": ""
  },
  {
   "property": "C12",
   "status": "proved",
   "theorems": [
    "Verif.Window.C12_lookup"
   ],
   "note": ""
  },
  {
   "property": "C13",
   "status": "proved",
   "theorems": [
    "Verif.Window.C13_crop_concat_sampled"
   ],
   "note": ""
  },
  {
   "property": "C14",
   "status": "proved",
   "theorems": [
    "Verif.Window.C14_crop_concat_labelled"
   ],
   "note": ""
  },
  {
   "property": "C15",
   "status": "proved",
   "theorems": [
    "Verif.Window.C15_frames"
   ],
   "note": ""
  },
  {
   "property": "C16",
   "status": "proved",
   "theorems": [
    "Verif.Window.C16_concatenate",
    "Verif.Window.C16_save_wavs"
   ],
   "note": ""
  },
  {
   "property": "C17",
   "status": "proved",
   "theorems": [
    "Verif.Pairing.C17_labels_match"
   ],
   "note": ""
  },
  {
   "property": "C18",
   "status": "proved",
   "theorems": [
    "Verif.Pairing.C18_no_reuse_maximal"
   ],
   "note": ""
  },
  {
   "property": "C19",
   "status": "proved",
   "theorems": [
    "Verif.Pairing.C19_associate_samples_total"
   ],
   "note": ""
  },
  {
   "property": "C20",
   "status": "proved",
   "theorems": [
    "Verif.Pairing.C20_organize_by_values",
    "Verif.Pairing.C20_organize_positions"
   ],
   "note": ""
  },
  {
   "property": "C21",
   "status": "proved",
   "theorems": [
    "Verif.Pairing.C21_named_labels"
   ],
   "note": ""
  },
  {
   "property": "C22",
   "status": "proved",
   "theorems": [
    "Verif.Pairing.C22_associate_to_window",
    "Verif.Pairing.C22_failures"
   ],
   "note": ""
  },
  {
   "property": "C23",
   "status": "proved",
   "theorems": [
    "Verif.Utils.C23_random_split"
   ],
   "note": "With the roundings of doubles: C224."
  },
  {
   "property": "C24",
   "status": "proved",
   "theorems": [
    "Verif.Utils.C24_leave_one_out"
   ],
   "note": ""
  },
  {
   "property": "C25",
   "status": "proved",
   "theorems": [
    "Verif.Utils.C25_delayed_circular",
    "Verif.Utils.C25_delayed_zeros",
    "Verif.Utils.C25_delayed_failures"
   ],
   "note": ""
  },
  {
   "property": "C26",
   "status": "proved",
   "theorems": [
    "Verif.Utils.C26_velocities",
    "Verif.Utils.C26_filter_cont"
   ],
   "note": "On doubles: C225; on arrays of integers: C230."
  },
  {
   "property": "C27",
   "status": "proved",
   "theorems": [
    "Verif.Utils.C27_filter_bound",
    "Verif.Utils.C27_normalize"
   ],
   "note": "On doubles: C225; on arrays of integers: C230."
  },
  {
   "property": "C28",
   "status": "proved",
   "theorems": [
    "Verif.Utils.C28_meta_map",
    "Verif.Utils.C28_flatten",
    "Verif.Utils.C28_distribute"
   ],
   "note": ""
  },
  {
   "property": "C29",
   "status": "proved",
   "theorems": [
    "Verif.Munkres.C29_min_weight_perm_square",
    "Verif.Munkres.C29_empty_matrix"
   ],
   "note": "Exact rational weights; C29_empty_matrix covers empty matrices."
  },
  {
   "property": "C30",
   "status": "proved",
   "theorems": [
    "Verif.Munkres.C30_fewer_rows",
    "Verif.Munkres.C30_more_rows"
   ],
   "note": ""
  },
  {
   "property": "C31",
   "status": "proved",
   "theorems": [
    "Verif.Munkres.C31_augmentation",
    "Verif.Munkres.C31_label_update",
    "Verif.Munkres.C31_max_weight_matching_terminates"
   ],
   "note": "Loops carry fuel; 2n+1 iterations of each loop suffice and the result does not depend on more fuel."
  },
  {
   "property": "C32",
   "status": "proved",
   "theorems": [
    "Verif.Munkres.C32_all_perms",
    "Verif.Munkres.C32_all_perms_length",
    "Verif.Munkres.C32_all_perms_nodup",
    "Verif.Munkres.C32_weight",
    "Verif.Munkres.C32_brute_force",
    "Verif.Munkres.C32_min_weight"
   ],
   "note": ""
  },
  {
   "property": "C33",
   "status": "proved",
   "theorems": [
    "Verif.Munkres.C33_reverse_function",
    "Verif.Munkres.C33_reverse_injective",
    "Verif.Munkres.C33_value_too_large",
    "Verif.Munkres.C33_default_size_fails"
   ],
   "note": ""
  },
  {
   "property": "C34",
   "status": "proved",
   "theorems": [
    "Verif.Metrics.C34_self",
    "Verif.Metrics.C34_lower_bound",
    "Verif.Metrics.C34_negative",
    "Verif.Metrics.C34_nonneg_eps_zero"
   ],
   "note": "Real numbers. With eps = 0 both arrays are positive (numpy gives nan for 0 * log 0)."
  },
  {
   "property": "C35",
   "status": "proved",
   "theorems": [
    "Verif.Metrics.C35_hoyer_range",
    "Verif.Metrics.C35_hoyer_one"
   ],
   "note": "On doubles: C229."
  },
  {
   "property": "C36",
   "status": "proved",
   "theorems": [
    "Verif.Metrics.C36_range",
    "Verif.Metrics.C36_zero_iff",
    "Verif.Metrics.C36_permutation",
    "Verif.Metrics.C36_uniform"
   ],
   "note": ""
  },
  {
   "property": "C37",
   "status": "proved",
   "theorems": [
    "Verif.Metrics.C37_entropies",
    "Verif.Metrics.C37_nonneg",
    "Verif.Metrics.C37_symmetric",
    "Verif.Metrics.C37_assertion"
   ],
   "note": ""
  },
  {
   "property": "C38",
   "status": "proved",
   "theorems": [
    "Verif.Metrics.C38_formula",
    "Verif.Metrics.C38_range",
    "Verif.Metrics.C38_zero_iff"
   ],
   "note": "Matrices; real numbers."
  },
  {
   "property": "C39",
   "status": "proved",
   "theorems": [
    "Verif.Metrics.C39_range",
    "Verif.Metrics.C39_symmetric",
    "Verif.Metrics.C39_zero",
    "Verif.Metrics.C39_scale",
    "Verif.Metrics.C39_self",
    "Verif.Metrics.C39_diff",
    "Verif.Metrics.C39_inner"
   ],
   "note": ""
  },
  {
   "property": "C40",
   "status": "proved",
   "theorems": [
    "Verif.Metrics.C40_distance",
    "Verif.Metrics.C40_scale"
   ],
   "note": ""
  },
  {
   "property": "C41",
   "status": "proved",
   "theorems": [
    "Verif.Metrics.C41_eps_ignored",
    "Verif.Metrics.C41_rev",
    "Verif.Metrics.C41_sym",
    "Verif.Metrics.C41_normalize",
    "Verif.Metrics.C41_side_effect"
   ],
   "note": ""
  },
  {
   "property": "C42",
   "status": "proved",
   "theorems": [
    "Verif.Arrays.C42_normalize_sum",
    "Verif.Arrays.C42_wrong_axis"
   ],
   "note": "Arrays of every dimension, negative axes included; rational entries."
  },
  {
   "property": "C43",
   "status": "proved",
   "theorems": [
    "Verif.Arrays.C43_dense",
    "Verif.Arrays.C43_sparse_eq_dense"
   ],
   "note": "Holds for data of any sign; sparse entries may be repeated or explicitly zero."
  },
  {
   "property": "C44",
   "status": "proved",
   "theorems": [
    "Verif.Arrays.C44_growing",
    "Verif.Arrays.C44_new"
   ],
   "note": "Rows given as lists."
  },
  {
   "property": "C45",
   "status": "proved",
   "theorems": [
    "Verif.Evaluation.C45_classify_NN"
   ],
   "note": ""
  },
  {
   "property": "C46",
   "status": "proved",
   "theorems": [
    "Verif.Evaluation.C46_score",
    "Verif.Evaluation.C46_evaluate_NN"
   ],
   "note": ""
  },
  {
   "property": "C47",
   "status": "proved",
   "theorems": [
    "Verif.Evaluation.C47_chose_examples"
   ],
   "note": ""
  },
  {
   "property": "C48",
   "status": "partial",
   "theorems": [
    "Verif.Evaluation.C48_confusion_partial",
    "Verif.Evaluation.C48_confusion_indicator",
    "Verif.Evaluation.C48_confusion_not_counting"
   ],
   "note": "The counting claim is false of the code (repeated pairs are counted once): C48_confusion_not_counting gives a witness; C48_confusion_indicator says what is computed and C48_confusion_partial when it is the count."
  },
  {
   "property": "C49",
   "status": "proved",
   "theorems": [
    "Verif.Evaluation.C49_given_nb"
   ],
   "note": ""
  },
  {
   "property": "C50",
   "status": "proved",
   "theorems": [
    "Verif.Evaluation.C50_threshold",
    "Verif.Evaluation.C50_evaluate_label_reco"
   ],
   "note": ""
  },
  {
   "property": "C51",
   "status": "proved",
   "theorems": [
    "Verif.Learner.C51_ranges",
    "Verif.Learner.C51_cover",
    "Verif.Learner.C51_stacked",
    "Verif.Learner.C51_repeated"
   ],
   "note": "Column ranges (C51_ranges, C51_cover) and stacked dictionaries (C51_stacked). Names have to be distinct: C51_repeated."
  },
  {
   "property": "C52",
   "status": "proved",
   "theorems": [
    "Verif.Learner.C52_modalities",
    "Verif.Learner.C52_modality_to_modality",
    "Verif.Learner.C52_exact"
   ],
   "note": "C52_exact: what is reconstructed is the scaled data, not the data."
  },
  {
   "property": "C53",
   "status": "proved",
   "theorems": [
    "Verif.Learner.C53_assertion",
    "Verif.Learner.C53_trained",
    "Verif.Learner.C53_errors"
   ],
   "note": "The dictionary is that of KLdivNMF on the stacked data; matrices beyond the number of modalities are ignored by the code (zip), hence the hypothesis that there is one for each. Any sequence of trainings, and fewer or more matrices than modalities: C234."
  },
  {
   "property": "C54",
   "status": "proved",
   "theorems": [
    "Verif.NMF.C54_fit",
    "Verif.NMF.C54_transform",
    "Verif.NMF.C54_zeros",
    "Verif.NMF.C54_fit_zeros",
    "Verif.NMF.C54_row_sums",
    "Verif.NMF.C54_negative",
    "Verif.NMF.C54_success"
   ],
   "note": "For every initial dictionary, number of iterations, dense or sparse data; C54_success shows that fit_transform does succeed."
  },
  {
   "property": "C55",
   "status": "proved",
   "theorems": [
    "Verif.NMF.C55_components",
    "Verif.NMF.C55_after",
    "Verif.NMF.C55_fit_after_transform"
   ],
   "note": "C55_fit_after_transform: the dictionary is also kept as the initial one of any later fit. Any sequence of calls: C233."
  },
  {
   "property": "C56",
   "status": "proved",
   "theorems": [
    "Verif.NMF.C56_update",
    "Verif.NMF.C56_dense",
    "Verif.NMF.C56_iterations",
    "Verif.NMF.C56_transform",
    "Verif.NMF.C56_strict",
    "Verif.NMF.C56_nearly_normalised",
    "Verif.NMF.C56_unnormalised"
   ],
   "note": "For dense and sparse data, and non-negative coefficients (not only positive); strict except at fixed points; bound for components which sum to less than 1, as those of the code; C56_unnormalised shows that normalisation is needed."
  },
  {
   "property": "C57",
   "status": "proved",
   "theorems": [
    "Verif.NMF.C57_errors",
    "Verif.NMF.C57_decreasing",
    "Verif.NMF.C57_values"
   ],
   "note": "C57_values: recorded values are the errors of the successive iterates; the coefficients returned come one update later."
  },
  {
   "property": "C58",
   "status": "proved",
   "theorems": [
    "Verif.NMF.C58_sparse_error",
    "Verif.NMF.C58_generalized_KL"
   ],
   "note": "Holds for data of any sign. C58_generalized_KL relates the error to the metric of the metrics module."
  },
  {
   "property": "C59",
   "status": "proved",
   "theorems": [
    "Verif.NMF.C59_scale",
    "Verif.NMF.C59_single"
   ],
   "note": "With a single component the code always raises IndexError (C59_single)."
  },
  {
   "property": "C60",
   "status": "proved",
   "theorems": [
    "Verif.NMF.C60_row_sums",
    "Verif.NMF.C60_no_eps",
    "Verif.NMF.C60_mass"
   ],
   "note": "For any regularisation; C60_no_eps is the case eps = 0, C60_mass a bound with the eps of the code."
  },
  {
   "property": "C61",
   "status": "proved",
   "theorems": [
    "Verif.NMF.C61_options",
    "Verif.NMF.C61_no_iteration",
    "Verif.NMF.C61_unbound"
   ],
   "note": "C61_unbound: the exception is UnboundLocalError, after components_ was set."
  },
  {
   "property": "C62",
   "status": "proved",
   "theorems": [
    "Verif.Features.C62_counts",
    "Verif.Features.C62_lag_zero",
    "Verif.Features.C62_negative_lag",
    "Verif.Features.C62_far_negative_lag"
   ],
   "note": "C62_counts for lags from 1; C62_lag_zero for lag 0; C62_negative_lag and C62_far_negative_lag for negative lags."
  },
  {
   "property": "C63",
   "status": "proved",
   "theorems": [
    "Verif.Features.C63_blocks",
    "Verif.Features.C63_length",
    "Verif.Features.C63_nothing"
   ],
   "note": "For every MFCC, delta and quantisation routine whose codes are below the size of the codebook."
  },
  {
   "property": "C64",
   "status": "proved",
   "theorems": [
    "Verif.Features.C64_turn",
    "Verif.Features.C64_count",
    "Verif.Features.C64_one",
    "Verif.Features.C64_modes"
   ],
   "note": "Routines are parameters with the contract `Contract`; the number of evaluations of the loop condition is bounded by max(k, 1)."
  },
  {
   "property": "C65",
   "status": "proved",
   "theorems": [
    "Verif.Features.C65_associate",
    "Verif.Features.C65_dimensions",
    "Verif.Features.C65_hard",
    "Verif.Features.C65_hard_associate",
    "Verif.Features.C65_bad_code",
    "Verif.Features.C65_soft",
    "Verif.Features.C65_soft_order"
   ],
   "note": "Codes of scipy's vq are a parameter; hard quantisation is proved for codes of nearest centroids, which those of associate are. Weights are real numbers; underflow of exp is the subject of C227."
  },
  {
   "property": "C66",
   "status": "proved",
   "theorems": [
    "Verif.Features.C66_round_trip",
    "Verif.Features.C66_compact"
   ],
   "note": "For lists of arrays seen as lists of lines."
  },
  {
   "property": "C67",
   "status": "proved",
   "theorems": [
    "Verif.Features.C67_options",
    "Verif.Features.C67_binned"
   ],
   "note": "C67_options is the independence; C67_binned tells what the density estimator is given."
  },
  {
   "property": "C68",
   "status": "proved",
   "theorems": [
    "Verif.KDE.C68_bins",
    "Verif.KDE.C68_mass",
    "Verif.KDE.C68_errors",
    "Verif.KDE.C68_constant"
   ],
   "note": "Over any ordered field with integer parts; float positions of bins are taken to be indices, as numpy before 1.12 allows."
  },
  {
   "property": "C69",
   "status": "proved",
   "theorems": [
    "Verif.KDE.C69_bins",
    "Verif.KDE.C69_mass",
    "Verif.KDE.C69_marginals",
    "Verif.KDE.C69_above",
    "Verif.KDE.C69_unchecked"
   ],
   "note": "C69_above and C69_unchecked show what happens out of bounds."
  },
  {
   "property": "C70",
   "status": "proved",
   "theorems": [
    "Verif.Logger.C70_store_errors",
    "Verif.Logger.C70_store_adds",
    "Verif.Logger.C70_store_result"
   ],
   "note": ""
  },
  {
   "property": "C71",
   "status": "proved",
   "theorems": [
    "Verif.Logger.C71_bookkeeping"
   ],
   "note": ""
  },
  {
   "property": "C72",
   "status": "proved",
   "theorems": [
    "Verif.Logger.C72_save_load",
    "Verif.Logger.C72_load_without_arrays",
    "Verif.Logger.C72_reachable_wf",
    "Verif.Logger.C72_npz_file_name",
    "Verif.Logger.C72_no_file"
   ],
   "note": "Plain values are those JSON reproduces. With a file name ending in .npz, arrays cannot be loaded back (C72_npz_file_name)."
  },
  {
   "property": "C73",
   "status": "partial",
   "theorems": [
    "Verif.Logger.C73_result_keys_partial",
    "Verif.Logger.C73_result_keys_lost"
   ],
   "note": "False of the code: load stores the result keys in another attribute. C73_result_keys_partial: a loaded logger has no result key; C73_result_keys_lost is a witness."
  },
  {
   "property": "C74",
   "status": "partial",
   "theorems": [
    "Verif.Logger.C74_crash_mixed",
    "Verif.Logger.C74_crash_partial",
    "Verif.Logger.C74_crash_truncated",
    "Verif.Logger.C74_crash_more_runs"
   ],
   "note": "False of the code: C74_crash_mixed is a witness of a mixture of two logs, C74_crash_truncated shows that every save has a crash point after which loading raises. C74_crash_partial states when it is safe. C74_crash_more_runs: with more runs, a crash between the files makes loading raise IndexError. Every state left by an interrupted or failed save: C217."
  },
  {
   "property": "C75",
   "status": "proved",
   "theorems": [
    "Verif.Logger.C75_merge",
    "Verif.Logger.C75_merge_errors"
   ],
   "note": ""
  },
  {
   "property": "C76",
   "status": "proved",
   "theorems": [
    "Verif.Sound.C76_tags_consistent",
    "Verif.Sound.C76_add_tag",
    "Verif.Sound.C76_get_tag_add"
   ],
   "note": ""
  },
  {
   "property": "C77",
   "status": "proved",
   "theorems": [
    "Verif.Sound.C77_round_trip",
    "Verif.Sound.C77_sorted",
    "Verif.Sound.C77_missing_audio",
    "Verif.Sound.C77_reachable"
   ],
   "note": "Databases reached by the API are consistent (C77_reachable); a missing audio name makes sorting raise (C77_missing_audio). JSON values are those it reproduces. Loads of several files and failed loads: C232."
  },
  {
   "property": "C78",
   "status": "partial",
   "theorems": [
    "Verif.Sound.C78_acceptance",
    "Verif.Sound.C78_known_partial",
    "Verif.Sound.C78_unknown_tag_accepted"
   ],
   "note": "False of the code by one: C78_unknown_tag_accepted is a witness of a record accepted with the tag id len(tags); C78_acceptance is the exact acceptance condition and C78_known_partial the part which holds."
  },
  {
   "property": "C79",
   "status": "proved",
   "theorems": [
    "Verif.Sound.C79_counts",
    "Verif.Sound.C79_cooccurrences"
   ],
   "note": "C79_counts gives the entries without the hypothesis on repeated tags, C79_cooccurrences the statement."
  },
  {
   "property": "C80",
   "status": "partial",
   "theorems": [
    "Verif.Sound.C80_strict_order",
    "Verif.Sound.C80_gt_partial",
    "Verif.Sound.C80_gt_wrong"
   ],
   "note": "The last claim is false of the code for distinct records of the same audio name: both a > b and b > a (C80_gt_wrong). C80_gt_partial: it holds otherwise; C80_strict_order: the order by <."
  },
  {
   "property": "C81",
   "status": "partial",
   "theorems": [
    "Verif.Objects.C81_views_partial",
    "Verif.Objects.C81_number_of_views",
    "Verif.Objects.C81_four_blocks",
    "Verif.Objects.C81_dict_round_trip"
   ],
   "note": "False of the code for exactly four blocks, which always give five views (C81_four_blocks, C81_number_of_views). C81_views_partial: all other numbers of blocks."
  },
  {
   "property": "C82",
   "status": "proved",
   "theorems": [
    "Verif.Objects.C82_average",
    "Verif.Objects.C82_index_error",
    "Verif.Objects.C82_empty_frame",
    "Verif.Objects.C82_built"
   ],
   "note": "C82_built composes it with the reading of files. Without any frame or with a last frame without view: IndexError (C82_index_error); other frames without view get the row of another frame (C82_empty_frame)."
  },
  {
   "property": "C83",
   "status": "proved",
   "theorems": [
    "Verif.Objects.C83_counts",
    "Verif.Objects.C83_rows"
   ],
   "note": "C83_rows also gives the content of the rows."
  },
  {
   "property": "C84",
   "status": "partial",
   "theorems": [
    "Verif.Motion.C84_records",
    "Verif.Motion.C84_round_trip_partial",
    "Verif.Motion.C84_int_keys_lost",
    "Verif.Motion.C84_wrong_type"
   ],
   "note": "Records, marker names and name are reproduced for every database; descriptions when they are None, a list or a dictionary with string keys. False for dictionaries with integer keys (C84_int_keys_lost): JSON makes strings of the keys, so no integer label has a description after loading. Interrupted and failing exports: C231."
  },
  {
   "property": "C85",
   "status": "proved",
   "theorems": [
    "Verif.Motion.C85_extend",
    "Verif.Motion.C85_errors",
    "Verif.Motion.C85_no_description"
   ],
   "note": "For every order in which Python may enumerate the set of labels."
  },
  {
   "property": "C86",
   "status": "proved",
   "theorems": [
    "Verif.Loaders.C86_objects",
    "Verif.Loaders.C86_objects_success",
    "Verif.Loaders.C86_acorns",
    "Verif.Loaders.C86_acorns_speaker",
    "Verif.Loaders.C86_acorns_sizes",
    "Verif.Loaders.C86_choreo2"
   ],
   "note": "For every sequence of calls, and whatever the files hold at each call. Also: speakers outside 0..3 (the check accepts 4) never give data."
  },
  {
   "property": "C87",
   "status": "proved",
   "theorems": [
    "Verif.Experiment.C87_examples",
    "Verif.Experiment.C87_runs",
    "Verif.Experiment.C87_logged",
    "Verif.Experiment.C87_total"
   ],
   "note": "What loaders return is arbitrary; enumeration orders of sets and shuffles are parameters under their contracts."
  },
  {
   "property": "C88",
   "status": "proved",
   "theorems": [
    "Verif.Experiment.C88_completes",
    "Verif.Experiment.C88_run",
    "Verif.Experiment.C88_globals",
    "Verif.Experiment.C88_no_run",
    "Verif.Experiment.C88_leave_one_out",
    "Verif.Experiment.C88_single",
    "Verif.Experiment.C88_saved",
    "Verif.Experiment.C88_stop_iteration"
   ],
   "note": "The learner and evaluations are parameters. A StopIteration raised by them ends the experiment silently (C88_stop_iteration); C88_completes: runs complete whenever training and evaluation do."
  },
  {
   "property": "C89",
   "status": "proved",
   "theorems": [
    "Verif.Experiment.C89_run",
    "Verif.Experiment.C89_keys",
    "Verif.Experiment.C89_evaluate",
    "Verif.Experiment.C89_reserved"
   ],
   "note": "C89_reserved: with a modality named bis, frob or cosine the run fails. C89_run: whole experiments complete."
  },
  {
   "property": "C90",
   "status": "proved",
   "theorems": [
    "Verif.Experiment.C90_run",
    "Verif.Experiment.C90_keys",
    "Verif.Experiment.C90_combinations",
    "Verif.Experiment.C90_evaluate",
    "Verif.Experiment.C90_fails"
   ],
   "note": "C90_fails covers the exact complement among lists of two and three distinct names."
  },
  {
   "property": "C91",
   "status": "proved",
   "theorems": [
    "Verif.Experiment.C91_round_trip",
    "Verif.Experiment.C91_unknown"
   ],
   "note": "Attributes are compared; loaders are compared by their configuration."
  },
  {
   "property": "C92",
   "status": "proved",
   "theorems": [
    "Verif.Transf.C92_multiply",
    "Verif.Transf.C92_conjugate",
    "Verif.Transf.C92_norm",
    "Verif.Transf.C92_inverse",
    "Verif.Transf.C92_algebra"
   ],
   "note": "Floats are real numbers. toH identifies quaternions with those of Mathlib."
  },
  {
   "property": "C93",
   "status": "proved",
   "theorems": [
    "Verif.Transf.C93_rotation",
    "Verif.Transf.C93_scale",
    "Verif.Transf.C93_neg",
    "Verif.Transf.C93_multiplicative",
    "Verif.Transf.C93_action"
   ],
   "note": "C93_scale needs the threshold (an example shows that it fails below it)."
  },
  {
   "property": "C94",
   "status": "proved",
   "theorems": [
    "Verif.Transf.C94_common",
    "Verif.Transf.C94_opposite",
    "Verif.Transf.C94_scale",
    "Verif.Transf.C94_degenerate",
    "Verif.Transf.C94_meaning",
    "Verif.Transf.C94_frames"
   ],
   "note": "C94_scale needs the threshold; C94_degenerate says what happens below it."
  },
  {
   "property": "C95",
   "status": "proved",
   "theorems": [
    "Verif.Transf.C95_rebuild",
    "Verif.Transf.C95_angles"
   ],
   "note": "atan2 is the argument of complex numbers. gimbal is the quantity which the code compares with _EPS."
  },
  {
   "property": "C96",
   "status": "proved",
   "theorems": [
    "Verif.Loaders.C96_check",
    "Verif.Loaders.C96_no_overwrite",
    "Verif.Loaders.C96_downloads",
    "Verif.Loaders.C96_partial_download"
   ],
   "note": "Single check and any sequence of check and download."
  },
  {
   "property": "C97",
   "status": "proved",
   "theorems": [
    "Verif.Sound.C97_statistics_fails"
   ],
   "note": ""
  },
  {
   "property": "C98",
   "status": "proved",
   "theorems": [
    "Verif.Metrics.C98_ratio",
    "Verif.Metrics.C98_sparse",
    "Verif.Metrics.C98_sparse_repeated"
   ],
   "note": ""
  },
  {
   "property": "C99",
   "status": "proved",
   "theorems": [
    "Verif.Objects.C99_label_time",
    "Verif.Objects.C99_features_reversed",
    "Verif.Objects.C99_names"
   ],
   "note": ""
  },
  {
   "property": "C100",
   "status": "proved",
   "theorems": [
    "Verif.Motion.C100_text_export",
    "Verif.Motion.C100_text_export_failure"
   ],
   "note": "Success condition, files written, and state left by a failure."
  },
  {
   "property": "C101",
   "status": "proved",
   "theorems": [
    "Verif.Loaders.C101_names",
    "Verif.Loaders.C101_download",
    "Verif.Loaders.C101_wrong_year"
   ],
   "note": "Names injective for all natural numbers; success; behaviour with a wrong year."
  },
  {
   "property": "C102",
   "status": "proved",
   "theorems": [
    "Verif.NMF.C102_warning",
    "Verif.NMF.C102_wrong_features"
   ],
   "note": "For every execution."
  },
  {
   "property": "C103",
   "status": "proved",
   "theorems": [
    "Verif.NMF.C103_objective",
    "Verif.NMF.C103_fixed_point_optimal"
   ],
   "note": "Descent lemma with the Kullback-Leibler divergence between old and new coefficients as lower bound of the decrease."
  },
  {
   "property": "C104",
   "status": "proved",
   "theorems": [
    "Verif.Learner.C104_train",
    "Verif.Learner.C104_modality_to_modality",
    "Verif.Learner.C104_wrong_data"
   ],
   "note": "C104_train and C104_modality_to_modality; the hypotheses of the second on the dictionary are conclusions of C53_trained."
  },
  {
   "property": "C105",
   "status": "proved",
   "theorems": [
    "Verif.Features.C105_python3",
    "Verif.Features.C105_python2",
    "Verif.Features.C105_rows"
   ],
   "note": "k-means, whitening and histograms are parameters."
  },
  {
   "property": "C106",
   "status": "proved",
   "theorems": [
    "Verif.KDE.C106_mass",
    "Verif.KDE.C106_mean",
    "Verif.KDE.C106_errors",
    "Verif.KDE.C106_shift",
    "Verif.KDE.C106_divergence",
    "Verif.KDE.C106_divergence_self",
    "Verif.KDE.C106_negative",
    "Verif.KDE.C106_values"
   ],
   "note": "Over the real numbers: with floats, np.arange may give one more point, and exponentials may underflow."
  },
  {
   "property": "C107",
   "status": "proved",
   "theorems": [
    "Verif.KDE.C107_mass",
    "Verif.KDE.C107_errors",
    "Verif.KDE.C107_values"
   ],
   "note": "Over the real numbers, as C106; FFT convolution is taken to be exact."
  },
  {
   "property": "C108",
   "status": "proved",
   "theorems": [
    "Verif.Experiment.C108_coefs"
   ],
   "note": ""
  },
  {
   "property": "C109",
   "status": "proved",
   "theorems": [
    "Verif.Transf.C109_meaning",
    "Verif.Transf.C109_rotation"
   ],
   "note": "Names in capital letters raise KeyError in euler_matrix only (example)."
  },
  {
   "property": "C110",
   "status": "proved",
   "theorems": [
    "Verif.Transf.C110_matrix",
    "Verif.Transf.C110_unit",
    "Verif.Transf.C110_rebuild"
   ],
   "note": ""
  },
  {
   "property": "C111",
   "status": "proved",
   "theorems": [
    "Verif.Transf.C111_quaternion",
    "Verif.Transf.C111_rotation",
    "Verif.Transf.C111_unique"
   ],
   "note": ""
  },
  {
   "property": "C112",
   "status": "proved",
   "theorems": [
    "Verif.Transf.C112_postures",
    "Verif.Transf.C112_indices",
    "Verif.Transf.C112_arrays",
    "Verif.Transf.C112_empty"
   ],
   "note": "Angles are triples; numpy.hstack concatenates them."
  },
  {
   "property": "C113",
   "status": "proved",
   "theorems": [
    "Verif.Corpus.C113_import"
   ],
   "note": "The file system is given by what os observes and does not change during the call; listings have distinct non empty names."
  },
  {
   "property": "C114",
   "status": "proved",
   "theorems": [
    "Verif.Corpus.C114_conventional",
    "Verif.Corpus.C114_something",
    "Verif.Corpus.C113_import"
   ],
   "note": "C113_import states the records too. Sound files with an extension in upper case give records without sound (example)."
  },
  {
   "property": "C115",
   "status": "proved",
   "theorems": [
    "Verif.Corpus.C115_line",
    "Verif.Corpus.C115_every_line",
    "Verif.Corpus.C115_lines",
    "Verif.Corpus.C115_file"
   ],
   "note": ""
  },
  {
   "property": "C116",
   "status": "proved",
   "theorems": [
    "Verif.Corpus.C116_modes",
    "Verif.Corpus.C116_existing"
   ],
   "note": "The mode 'everything' cannot work: set(speakers_info.keys) is applied to a method."
  },
  {
   "property": "C117",
   "status": "proved",
   "theorems": [
    "Verif.Corpus.C117_import",
    "Verif.Corpus.C117_only_if"
   ],
   "note": "dom.parse is a parameter giving a tree; C117_only_if is the converse."
  },
  {
   "property": "C118",
   "status": "proved",
   "theorems": [
    "Verif.Corpus.C118_wrong_year",
    "Verif.Corpus.C118_speakers"
   ],
   "note": "check_year raises a tuple, hence TypeError in Python 3."
  },
  {
   "property": "C119",
   "status": "proved",
   "theorems": [
    "Verif.Corpus.C119_unknown",
    "Verif.Corpus.C119_python3",
    "Verif.Corpus.C119_python2",
    "Verif.Datasets.C119_files",
    "Verif.Datasets.C119_default"
   ],
   "note": "The version of Python is a parameter."
  },
  {
   "property": "C120",
   "status": "proved",
   "theorems": [
    "Verif.Corpus.C120_config"
   ],
   "note": ""
  },
  {
   "property": "C121",
   "status": "proved",
   "theorems": [
    "Verif.Corpus.C121_acorns",
    "Verif.Corpus.C121_vctk"
   ],
   "note": "Combines C113, C117 and C77."
  },
  {
   "property": "C122",
   "status": "proved",
   "theorems": [
    "Verif.Plots.C122_pairs",
    "Verif.Plots.C122_combinations",
    "Verif.Plots.C122_legends"
   ],
   "note": ""
  },
  {
   "property": "C123",
   "status": "proved",
   "theorems": [
    "Verif.Plots.C123_two",
    "Verif.Plots.C123_three"
   ],
   "note": "Composition with C89_run and C90_run, which give ScoresTwo and ScoresThree."
  },
  {
   "property": "C124",
   "status": "proved",
   "theorems": [
    "Verif.Plots.C124_colors",
    "Verif.Plots.C124_distinct"
   ],
   "note": ""
  },
  {
   "property": "C125",
   "status": "proved",
   "theorems": [
    "Verif.Plots.C125_mean_variance",
    "Verif.Plots.C125_plot_var",
    "Verif.Plots.C125_curve"
   ],
   "note": "Standard deviations are represented by their squares, over the rationals. C125_mean_variance is the numerical part."
  },
  {
   "property": "C126",
   "status": "proved",
   "theorems": [
    "Verif.Plots.C126_new",
    "Verif.Plots.C126_defaults",
    "Verif.Plots.C126_wrong",
    "Verif.Plots.C126_order"
   ],
   "note": "The order of arguments in InteractivePlot and plot_one_sentence is a defect; the sample script passes them in the order which works."
  },
  {
   "property": "C127",
   "status": "proved",
   "theorems": [
    "Verif.Plots.C127_draw"
   ],
   "note": "Only what is given to matplotlib is modelled; annotations of plot_one_sentence are not."
  },
  {
   "property": "C128",
   "status": "proved",
   "theorems": [
    "Verif.Plots.C128_out",
    "Verif.Plots.C128_interactive"
   ],
   "note": ""
  },
  {
   "property": "C129",
   "status": "proved",
   "theorems": [
    "Verif.Plots.C129_reacts",
    "Verif.Plots.C129_keys",
    "Verif.Plots.C129_beyond",
    "Verif.Plots.C129_events"
   ],
   "note": "Sliders replace a value v by an arbitrary function of v."
  },
  {
   "property": "C130",
   "status": "proved",
   "theorems": [
    "Verif.Plots.C130_sentence"
   ],
   "note": "Annotations are not modelled."
  },
  {
   "property": "C131",
   "status": "proved",
   "theorems": [
    "Verif.Samples.C131_word_histo",
    "Verif.Samples.C131_errors",
    "Verif.Samples.C131_words"
   ],
   "note": "The order of sets is an arbitrary enumeration. Only ASCII letters are changed by lower()."
  },
  {
   "property": "C132",
   "status": "proved",
   "theorems": [
    "Verif.Samples.C132_joint",
    "Verif.Samples.C132_information"
   ],
   "note": ""
  },
  {
   "property": "C133",
   "status": "proved",
   "theorems": [
    "Verif.Samples.C133_information",
    "Verif.Samples.C133_constant",
    "Verif.Samples.C133_empty"
   ],
   "note": "np.histogram with exact numbers, without the rounding corrections of numpy."
  },
  {
   "property": "C134",
   "status": "proved",
   "theorems": [
    "Verif.Samples.C134_order",
    "Verif.Samples.C134_too_many_labels"
   ],
   "note": ""
  },
  {
   "property": "C135",
   "status": "proved",
   "theorems": [
    "Verif.Samples.C135_labels_again",
    "Verif.Samples.C135_wrong_keys"
   ],
   "note": "The wrong keys are a defect of the script."
  },
  {
   "property": "C136",
   "status": "proved",
   "theorems": [
    "Verif.Samples.C136_confusion",
    "Verif.Samples.C136_errors"
   ],
   "note": ""
  },
  {
   "property": "C137",
   "status": "proved",
   "theorems": [
    "Verif.Samples.C137_test_labels",
    "Verif.Samples.C137_wrong"
   ],
   "note": "Exact statement of what the script does; C137_wrong is the witness which shows that it is a defect."
  },
  {
   "property": "C138",
   "status": "proved",
   "theorems": [
    "Verif.Samples.C138_jobs",
    "Verif.Samples.C138_parameters",
    "Verif.Samples.C138_loaders"
   ],
   "note": "Job and pools of the package expjobs are not modelled; a job is a path, a name and a script."
  },
  {
   "property": "C139",
   "status": "proved",
   "theorems": [
    "Verif.Samples.C139_collect_pairs",
    "Verif.Samples.C139_collect_three",
    "Verif.Samples.C139_collect_image",
    "Verif.Samples.C139_no_runs",
    "Verif.Samples.C139_all_loaded",
    "Verif.Samples.C139_all_loaded_more"
   ],
   "note": "The logs are loaded without arrays, as in the launcher."
  },
  {
   "property": "C140",
   "status": "proved",
   "theorems": [
    "Verif.Samples.C140_saved",
    "Verif.Samples.C140_on_disk"
   ],
   "note": ""
  },
  {
   "property": "C141",
   "status": "proved",
   "theorems": [
    "Verif.Samples.C141_sliding",
    "Verif.Samples.C141_records"
   ],
   "note": "The DEBUG branch is not modelled."
  },
  {
   "property": "C142",
   "status": "proved",
   "theorems": [
    "Verif.Geom.C142_translation"
   ],
   "note": ""
  },
  {
   "property": "C143",
   "status": "proved",
   "theorems": [
    "Verif.Geom.C143_reflection"
   ],
   "note": ""
  },
  {
   "property": "C144",
   "status": "proved",
   "theorems": [
    "Verif.Geom.C144_rotation",
    "Verif.Geom.C144_compose",
    "Verif.Geom.C144_quaternion"
   ],
   "note": ""
  },
  {
   "property": "C145",
   "status": "proved",
   "theorems": [
    "Verif.Geom.C145_scale"
   ],
   "note": ""
  },
  {
   "property": "C146",
   "status": "proved",
   "theorems": [
    "Verif.Geom.C146_parallel",
    "Verif.Geom.C146_perspective",
    "Verif.Geom.C146_pseudo"
   ],
   "note": ""
  },
  {
   "property": "C147",
   "status": "proved",
   "theorems": [
    "Verif.Geom.C147_errors",
    "Verif.Geom.C147_value_error",
    "Verif.Geom.C147_orthographic",
    "Verif.Geom.C147_perspective"
   ],
   "note": ""
  },
  {
   "property": "C148",
   "status": "proved",
   "theorems": [
    "Verif.Geom.C148_errors",
    "Verif.Geom.C148_shear"
   ],
   "note": "Angles without tangent are left out (no float is one)."
  },
  {
   "property": "C149",
   "status": "proved",
   "theorems": [
    "Verif.Geom.C149_random"
   ],
   "note": "The numbers drawn are parameters; their distribution is not modelled."
  },
  {
   "property": "C150",
   "status": "proved",
   "theorems": [
    "Verif.Geom.C150_ends",
    "Verif.Geom.C150_slerp"
   ],
   "note": "Exact statement: the result for odd spin is not a unit quaternion in general (example in Examples.lean)."
  },
  {
   "property": "C151",
   "status": "proved",
   "theorems": [
    "Verif.Geom.C151_sphere",
    "Verif.Geom.C151_constrain",
    "Verif.Geom.C151_nearest",
    "Verif.Geom.C151_step",
    "Verif.Geom.C151_initial",
    "Verif.Geom.C151_always",
    "Verif.Geom.C151_errors",
    "Verif.Geom.C151_drag",
    "Verif.Geom.C151_path",
    "Verif.Geom.C151_next",
    "Verif.Geom.C151_nan",
    "Verif.Geom.C151_settings",
    "Verif.Geom.C151_settings_matrix"
   ],
   "note": "The axis (0, 0, -1) is a defect of arcball_constrain_to_axis (only a[2] == 1.0 is tested): C151_nan."
  },
  {
   "property": "C153",
   "status": "proved",
   "theorems": [
    "Verif.Geom.C153_concatenate",
    "Verif.Geom.C153_same",
    "Verif.Geom.C153_asymmetric"
   ],
   "note": ""
  },
  {
   "property": "C154",
   "status": "proved",
   "theorems": [
    "Verif.Geom.C154_cell",
    "Verif.Geom.C154_errors"
   ],
   "note": ""
  },
  {
   "property": "C152",
   "status": "proved",
   "theorems": [
    "Verif.Geom.C152_compose",
    "Verif.Geom.C152_errors",
    "Verif.Geom.C152_rebuild",
    "Verif.Geom.C152_ranges",
    "Verif.Geom.C152_back"
   ],
   "note": "The forgotten small perspective is part of the exact statement."
  },
  {
   "property": "C155",
   "status": "proved",
   "theorems": [
    "Verif.Geom.C155_least",
    "Verif.Geom.C155_defined"
   ],
   "note": "numpy.linalg.svd and eig are parameters; the theorems assume their contracts (IsSvd, IsEig) for the matrix they are given. The scale of the code is the ratio of deviations, which is not the factor with the lowest sum of squares; the statement is for the scale of the code."
  },
  {
   "property": "C156",
   "status": "proved",
   "theorems": [
    "Verif.Geom.C156_exact"
   ],
   "note": "Same contracts as C155."
  },
  {
   "property": "C157",
   "status": "proved",
   "theorems": [
    "Verif.Geom.C157_reflection"
   ],
   "note": "numpy.linalg.eig is a parameter; the theorems assume its contract (IsEigC) for the matrices it is given."
  },
  {
   "property": "C158",
   "status": "proved",
   "theorems": [
    "Verif.Geom.C158_rotation"
   ],
   "note": "numpy.linalg.eig is a parameter; the theorems assume its contract (IsEigC) for the matrices it is given. For cosines strictly between 1 - 1e-8 and 1 the tolerance accepts complex eigenvalues; the statement leaves them out."
  },
  {
   "property": "C159",
   "status": "proved",
   "theorems": [
    "Verif.Geom.C159_uniform",
    "Verif.Geom.C159_direction"
   ],
   "note": "numpy.linalg.eig is a parameter; the theorems assume its contract (IsEigC) for the matrices it is given."
  },
  {
   "property": "C160",
   "status": "proved",
   "theorems": [
    "Verif.Geom.C160_parallel",
    "Verif.Geom.C160_perspective",
    "Verif.Geom.C160_depth_one",
    "Verif.Geom.C160_misplaced"
   ],
   "note": "numpy.linalg.eig is a parameter; the theorems assume its contract (IsEigC) for the matrices it is given. The failures at depth one and with a last eigenvalue minus one are part of the statement."
  },
  {
   "property": "C161",
   "status": "proved",
   "theorems": [
    "Verif.Geom.C161_shear"
   ],
   "note": "numpy.linalg.eig is a parameter; the theorems assume its contract (IsEigC) for the matrices it is given. shear_matrix itself accepts directions within 1e-6 of orthogonality; the statement is for orthogonal ones."
  },
  {
   "property": "C162",
   "status": "proved",
   "theorems": [
    "Verif.KDE.C162_value",
    "Verif.KDE.C162_bounds",
    "Verif.KDE.C162_invariance",
    "Verif.KDE.C162_errors",
    "Verif.KDE.C162_two"
   ],
   "note": "That kde_entropy_gaussian_2d always raises TypeError is part of the statement."
  },
  {
   "property": "C163",
   "status": "proved",
   "theorems": [
    "Verif.KDE.C163_value",
    "Verif.KDE.C163_self",
    "Verif.KDE.C163_errors",
    "Verif.KDE.C163_negative"
   ],
   "note": "Equality up to real arithmetic; the sign (minus the divergence) is the code's and part of the statement."
  },
  {
   "property": "C164",
   "status": "proved",
   "theorems": [
    "Verif.Features.C164_features",
    "Verif.Features.C164_lengths",
    "Verif.Features.C164_errors"
   ],
   "note": "The density estimate is the one of C107; square root taken as the integer part of the real root."
  },
  {
   "property": "C165",
   "status": "proved",
   "theorems": [
    "Verif.Sklearn.C165_finite",
    "Verif.Sklearn.C165_array2d",
    "Verif.Sklearn.C165_same",
    "Verif.Sklearn.C165_copy",
    "Verif.Sklearn.C165_copy_shares",
    "Verif.Sklearn.C165_atleast2d",
    "Verif.Sklearn.C165_dot"
   ],
   "note": "numpy's sum and conversions are parameters with contracts; the products of numpy and scipy are taken to be products of matrices. That copy does not copy vectors is part of the statement."
  },
  {
   "property": "C166",
   "status": "proved",
   "theorems": [
    "Verif.Experiment.C166_stats",
    "Verif.Experiment.C166_missing",
    "Verif.Experiment.C166_two",
    "Verif.Experiment.C166_width",
    "Verif.Experiment.C166_few",
    "Verif.Experiment.C166_two_run",
    "Verif.Experiment.C166_three",
    "Verif.Experiment.C166_three_run",
    "Verif.Experiment.C166_text",
    "Verif.Experiment.C166_all"
   ],
   "note": "How numbers are written ('{:.3f}') is a parameter. The failure of the table with three modalities is part of the statement."
  },
  {
   "property": "C167",
   "status": "proved",
   "theorems": [
    "Verif.Datasets.C167_local",
    "Verif.Datasets.C167_choreo2",
    "Verif.Datasets.C167_names",
    "Verif.Datasets.C167_acorns",
    "Verif.Datasets.C167_objects",
    "Verif.Datasets.C167_script"
   ],
   "note": "That download_dbs fails is part of the statement."
  },
  {
   "property": "C168",
   "status": "proved",
   "theorems": [
    "Verif.Datasets.C168_round_trip",
    "Verif.Datasets.C168_missing",
    "Verif.Datasets.C168_parse",
    "Verif.Datasets.C168_names"
   ],
   "note": "Matrices are abstract; that a matrix is read as it was written in a .mat file is assumed. The ineffective guard of parse_objects is part of the statement. Interrupted saves: C231."
  },
  {
   "property": "C169",
   "status": "proved",
   "theorems": [
    "Verif.Datasets.C169_empty",
    "Verif.Datasets.C169_blacklist",
    "Verif.Datasets.C169_features",
    "Verif.Datasets.C169_success",
    "Verif.Datasets.C169_speaker",
    "Verif.Datasets.C169_codebook"
   ],
   "note": "wav2hac is a parameter which may fail; the content of .mat files is read as written."
  },
  {
   "property": "C170",
   "status": "proved",
   "theorems": [
    "Verif.Datasets.C170_errors",
    "Verif.Datasets.C170_success",
    "Verif.Datasets.C170_python3"
   ],
   "note": "MotionDatabase.load_from_npz and the computation of features are parameters in the first theorems."
  },
  {
   "property": "C171",
   "status": "proved",
   "theorems": [
    "Verif.Datasets.C171_codebooks",
    "Verif.Datasets.C171_length",
    "Verif.Datasets.C171_vctk",
    "Verif.Datasets.C171_script",
    "Verif.Datasets.C171_acorns",
    "Verif.Datasets.C171_year2"
   ],
   "note": "Computation of MFCC, derivatives and codebooks are parameters. The order of the records of a speaker is that of a sort by sound file, see C121."
  },
  {
   "property": "C172",
   "status": "proved",
   "theorems": [
    "Verif.Style.C172_clean",
    "Verif.Style.C172_unknown",
    "Verif.Style.C172_labels",
    "Verif.Style.C172_twice"
   ],
   "note": "Spines and tick positions are what is modelled of matplotlib. With a logarithmic axis which keeps both spines the position of ticks depends on the order of a set, hence the hypothesis of C172_twice."
  },
  {
   "property": "C173",
   "status": "proved",
   "theorems": [
    "Verif.Style.C173_plot",
    "Verif.Style.C173_legend",
    "Verif.Style.C173_boxplot",
    "Verif.Style.C173_cmap",
    "Verif.Style.C173_pcolormesh",
    "Verif.Style.C173_colors"
   ],
   "note": "Drawing itself is a parameter: the theorems say on which axes and with which arguments it is called."
  },
  {
   "property": "C174",
   "status": "proved",
   "theorems": [
    "Verif.Sound.C174_dom",
    "Verif.Sound.C174_injective"
   ],
   "note": "Construction of the document only; text encoding is xml.dom."
  },
  {
   "property": "C175",
   "status": "proved",
   "theorems": [
    "Verif.Experiment.C175_debug",
    "Verif.Experiment.C175_icdl",
    "Verif.Experiment.C175_image",
    "Verif.Experiment.C175_refused"
   ],
   "note": "From what the loaders read to the printed table; file formats below are C167 to C170. Training and transformation are parameters (C102 to C104 for the learner itself). Two samples of each label leave ten samples besides examples, so that no test set of the ratio 1 / 10 is empty."
  },
  {
   "property": "C176",
   "status": "proved",
   "theorems": [
    "Verif.Logger.C176_plain",
    "Verif.Logger.C176_equivalence",
    "Verif.Logger.C176_other",
    "Verif.Logger.C176_loaded"
   ],
   "note": "Values are compared through a contract: plain values by decidable equality, arrays elementwise with the truth value of numpy (ValueError with several values; the truth value of an empty array is False). Loaded loggers lose result_keys (C73), which is why equality requires none."
  },
  {
   "property": "C177",
   "status": "proved",
   "theorems": [
    "Verif.Experiment.C177_round_trip",
    "Verif.Experiment.C177_missing",
    "Verif.Experiment.C177_unknown",
    "Verif.Experiment.C177_not_pair",
    "Verif.Samples.C177_prepare"
   ],
   "note": "JSON text itself is trusted: the model has the tree of JSON values with strings, numbers, lists, dictionaries. Sets of labels are written as lists in any order."
  },
  {
   "property": "C178",
   "status": "proved",
   "theorems": [
    "Verif.Plots.C178_boxes",
    "Verif.Plots.C178_feats",
    "Verif.Plots.C178_all_mods",
    "Verif.Plots.C178_none",
    "Verif.Plots.C178_unknown"
   ],
   "note": "Values of logs are a parameter (get_values); boxes, panels (with their place), shared ordinates, legends are modelled, drawing by matplotlib is not."
  },
  {
   "property": "C179",
   "status": "proved",
   "theorems": [
    "Verif.Plots.C179_k_graphs",
    "Verif.Plots.C179_2k_graphs",
    "Verif.Plots.C179_none"
   ],
   "note": "Finding: `metric` is ignored (the figure titled 'Cosine' of the launcher shows scores of the first metric), and labels show lists."
  },
  {
   "property": "C180",
   "status": "proved",
   "theorems": [
    "Verif.Samples.C180_plot"
   ],
   "note": "Composition of C139 with C178 and C179; the logs are what is saved by the runs (C140). The assertions about matplotlib parameters are not modelled."
  },
  {
   "property": "C181",
   "status": "proved",
   "theorems": [
    "Verif.Samples.C181_actions",
    "Verif.Samples.C181_saved",
    "Verif.Samples.C181_watch",
    "Verif.Samples.C181_watch_ends"
   ],
   "note": "The pool (expjobs) is a sequence of readings: each access reads the next one. argparse itself is not modelled."
  },
  {
   "property": "C182",
   "status": "proved",
   "theorems": [
    "Verif.Samples.C182_job",
    "Verif.Samples.C182_figures",
    "Verif.Samples.C182_launcher"
   ],
   "note": "expjobs is not part of the repository: jobs run one after another, each loading its parameters and writing its log at path and name. Learners are a parameter which keeps the number of samples and does not raise StopIteration. Composition of C177, C88, C89/C90, C140 and C180."
  },
  {
   "property": "C183",
   "status": "proved",
   "theorems": [
    "Verif.Samples.C183_failed",
    "Verif.Samples.C183_sliding"
   ],
   "note": "hac with the loaded codebooks is a parameter which gives vectors of one length; learners are parameters, and setting the attribute dico of a new learner gives the coefficients of the trained one. Windows of labels built by the script and not used are not modelled. Composition of C141, C87, C88, C89 and C72."
  },
  {
   "property": "C184",
   "status": "proved",
   "theorems": [
    "Verif.Motion.C184_npz",
    "Verif.Motion.C184_npz_absolute",
    "Verif.Motion.C184_npz_subdirectory",
    "Verif.Motion.C184_txt",
    "Verif.Motion.C184_mat",
    "Verif.Motion.C184_errors",
    "Verif.Motion.C184_verbose",
    "Verif.Motion.C184_add"
   ],
   "note": "The failure for names with a relative directory is a fault of the code: load_from_npz joins the directory of the JSON file with the data file, whose name repeats this directory. Two spellings of a path are two paths; writing contents does not fail once the file is open."
  },
  {
   "property": "C185",
   "status": "proved",
   "theorems": [
    "Verif.Features.C185_mfcc",
    "Verif.Features.C185_direct",
    "Verif.Features.C185_reserved",
    "Verif.Features.C185_defaults",
    "Verif.Features.C185_same",
    "Verif.Features.C185_codebooks"
   ],
   "note": "melspectrogram, logamplitude, dct, delta and vq are parameters with contracts: some frames, shapes kept, vq raises ValueError exactly when widths differ. The dictionary MFCC_PARAMS is state which functions return."
  },
  {
   "property": "C186",
   "status": "proved",
   "theorems": [
    "Verif.Samples.C186_shown",
    "Verif.Samples.C186_debug"
   ],
   "note": "Composition of C183, C72, C137, C141, C126 and C128. The second debug claim is exact behaviour of the code: the plot script ignores debug mode."
  },
  {
   "property": "C187",
   "status": "proved",
   "theorems": [
    "Verif.Plots.C187_annotations",
    "Verif.Samples.C187_test_windows",
    "Verif.Samples.C187_words",
    "Verif.Samples.C187_files",
    "Verif.Samples.C187_few",
    "Verif.Samples.C187_no_directory"
   ],
   "note": "What matplotlib draws is a drawing and the limits of ordinates which it chooses, a parameter; the figure is a value. The four names must differ up to the first dot."
  },
  {
   "property": "C188",
   "status": "proved",
   "theorems": [
    "Verif.NDArray.C188_norm_vector",
    "Verif.NDArray.C188_norm_axis",
    "Verif.NDArray.C188_norm_all",
    "Verif.NDArray.C188_norm_scalar",
    "Verif.NDArray.C188_norm_no_axis",
    "Verif.NDArray.C188_norm_out",
    "Verif.NDArray.C188_unit_vector",
    "Verif.NDArray.C188_unit_axis",
    "Verif.NDArray.C188_unit_all",
    "Verif.NDArray.C188_unit_norm",
    "Verif.NDArray.C188_unit_out",
    "Verif.NDArray.C188_unit_out_vector",
    "Verif.NDArray.C188_unit_out_shape"
   ],
   "note": "Arrays are lists of values in the order of C with their shapes. Types other than floats and conversions of nested lists are not modelled; infinite values neither. On doubles: C228."
  },
  {
   "property": "C189",
   "status": "proved",
   "theorems": [
    "Verif.Imports.C189_imported",
    "Verif.Imports.C189_no_prefix",
    "Verif.Imports.C189_failed"
   ],
   "note": "A prefix which begins with the text to ignore is not empty and never makes a public name; the imported module does not redefine the builtins which the function uses."
  },
  {
   "property": "C190",
   "status": "proved",
   "theorems": [
    "Verif.Logger.C190_alone",
    "Verif.Logger.C190_finished",
    "Verif.Logger.C190_finished_plain",
    "Verif.Logger.C190_waiting",
    "Verif.Logger.C190_npz_name",
    "Verif.Logger.C190_same_name",
    "Verif.Samples.C190_figures"
   ],
   "note": "The writes of a save are those of the model of C72 and C74: the archive, the opening of the JSON file, its contents; each is atomic. That jobs only change the disk by the save of their log is C182_job."
  },
  {
   "property": "C191",
   "status": "proved",
   "theorems": [
    "Verif.NMF.C191_from_triples",
    "Verif.NMF.C191_fit",
    "Verif.NMF.C191_error",
    "Verif.NMF.C191_fit_triples",
    "Verif.NMF.C191_unsorted",
    "Verif.NMF.C191_duplicates"
   ],
   "note": "Operations of scipy.sparse (eliminate_zeros, nonzero, conversion from triples, products) are modelled entry by entry; values are real numbers. The claims of C54-C61 for sparse data hold for stored matrices by C191_fit."
  },
  {
   "property": "C192",
   "status": "proved",
   "theorems": [
    "Verif.Window.Fl.C192_moved",
    "Verif.Window.Fl.C192_index_before",
    "Verif.Window.Fl.C192_index_after",
    "Verif.Window.Fl.C192_subwindow",
    "Verif.Window.Fl.C192_boundaries",
    "Verif.Window.Fl.C192_crops",
    "Verif.Window.Fl.C192_wav"
   ],
   "note": "The rounding is a parameter (IsRounding); isRounding_dbl shows that rounding to the nearest double, ties to even, without overflow, is one. model_id: without rounding this is the model of C01-C16. C192_moved is the witness for windows moved twice."
  },
  {
   "property": "C193",
   "status": "proved",
   "theorems": [
    "Verif.Window.Fl.C193_end",
    "Verif.Window.Fl.C193_build",
    "Verif.Window.Fl.C193_at",
    "Verif.Window.Fl.C193_crop_one",
    "Verif.Window.Fl.C193_crop_many",
    "Verif.Window.Fl.C193_crop"
   ],
   "note": "Exact statement of what the code does; C193_end is the witness which shows that valid ranges may be refused. C05 and C13 are about exact times."
  },
  {
   "property": "C194",
   "status": "proved",
   "theorems": [
    "Verif.Window.Fl.C194_last",
    "Verif.Window.Fl.C194_edge",
    "Verif.Window.Fl.C194_starts",
    "Verif.Window.Fl.C194_slider",
    "Verif.Window.Fl.C194_none",
    "Verif.Window.Fl.C194_frames",
    "Verif.Window.Fl.C194_files"
   ],
   "note": "Exact statement of what the code does; C194_last and C194_edge are the witnesses for the two failures, with doubles. The script of sliding windows uses the windows of C194_files (width 0.5, shift 0.1). C09, C10, C16, C141 and C183 are about exact times."
  },
  {
   "property": "C195",
   "status": "proved",
   "theorems": [
    "Verif.Munkres.Fl.C195_permutation",
    "Verif.Munkres.Fl.C195_fewer_rows",
    "Verif.Munkres.Fl.C195_more_rows"
   ],
   "note": "fl is an arbitrary function: only the structure of the trees and of the matching is used"
  },
  {
   "property": "C196",
   "status": "proved",
   "theorems": [
    "Verif.Munkres.Fl.C196_exact",
    "Verif.Munkres.Fl.C196_exact_fewer_rows",
    "Verif.Munkres.Fl.C196_exact_more_rows",
    "Verif.Munkres.Fl.C196_exact_doubles",
    "Verif.Munkres.Fl.C196_doubles",
    "Verif.Munkres.Fl.C196_doubles_fewer_rows",
    "Verif.Munkres.Fl.C196_doubles_more_rows",
    "Verif.Munkres.Fl.C196_not_optimal",
    "Verif.Munkres.Fl.C196_large_integers"
   ],
   "note": "exact on multiples of a unit (C196_exact...), near-optimal in general (C196_doubles...), witnesses of results which are not optimal (C196_not_optimal, C196_large_integers). The bound is exponential in n, hence stated up to ten rows; overflow is not modelled."
  },
  {
   "property": "C197",
   "status": "proved",
   "theorems": [
    "Verif.NMF.D.C197_fit",
    "Verif.NMF.D.C197_default",
    "Verif.NMF.D.C197_transform",
    "Verif.NMF.D.C197_overflow"
   ],
   "note": "doubles with overflow; the logarithm of numpy is a parameter which gives doubles of absolute value at most 1024 on positive doubles. ExactDouble.lean shows that without rounding the model is that of C54-C61."
  },
  {
   "property": "C198",
   "status": "proved",
   "theorems": [
    "Verif.NMF.D.C198_zeros",
    "Verif.NMF.D.C198_errors",
    "Verif.NMF.D.C198_empty_samples",
    "Verif.NMF.D.C198_component_sums",
    "Verif.NMF.D.C198_fit_sums",
    "Verif.NMF.D.C198_underflow"
   ],
   "note": "additions of doubles have a relative error at most 2^-53 even for tiny numbers (dbl_add); sums in any order (Plan)"
  },
  {
   "property": "C199",
   "status": "proved",
   "theorems": [
    "Verif.Evaluation.D.C199_found",
    "Verif.Evaluation.D.C199_frobenius",
    "Verif.Evaluation.D.C199_copy",
    "Verif.Evaluation.D.C199_error",
    "Verif.Evaluation.D.C199_nearest",
    "Verif.Evaluation.D.C199_overflow",
    "Verif.Evaluation.D.C199_underflow"
   ],
   "note": "the square root is a parameter which gives the double nearest to the real one (IEEE 754); numpy's argmin with NaN as documented. The sign of zeros is not represented."
  },
  {
   "property": "C200",
   "status": "proved",
   "theorems": [
    "Verif.Evaluation.D.C200_symm",
    "Verif.Evaluation.D.C200_error",
    "Verif.Evaluation.D.C200_self",
    "Verif.Evaluation.D.C200_orthogonal",
    "Verif.Evaluation.D.C200_not_nan",
    "Verif.Evaluation.D.C200_nearest",
    "Verif.Evaluation.D.C200_above",
    "Verif.Evaluation.D.C200_underflow",
    "Verif.Evaluation.D.C200_overflow"
   ],
   "note": "the order of additions is the same for the three sums of one call, since they have the same length; the lower bound 2^-120 excludes underflow of products"
  },
  {
   "property": "C201",
   "status": "proved",
   "theorems": [
    "Verif.Evaluation.D.C201_symm",
    "Verif.Evaluation.D.C201_self",
    "Verif.Evaluation.D.C201_error",
    "Verif.Evaluation.D.C201_lower",
    "Verif.Evaluation.D.C201_finite",
    "Verif.Evaluation.D.C201_nearest",
    "Verif.Evaluation.D.C201_negative"
   ],
   "note": "normalize=False, the default, as used by the experiments; the logarithm is a parameter with a contract, met by the nearest double (exists_isLog)"
  },
  {
   "property": "C202",
   "status": "proved",
   "theorems": [
    "Verif.Evaluation.D.C202_score",
    "Verif.Evaluation.D.C202_order",
    "Verif.Evaluation.D.C202_lengths"
   ],
   "note": "numpy averages booleans as floats; sums of at most 2^53 zeros and ones are exact"
  },
  {
   "property": "C203",
   "status": "proved",
   "theorems": [
    "Verif.Arrays.D.C203_kept",
    "Verif.Arrays.D.C203_dense",
    "Verif.Arrays.D.C203_sparse",
    "Verif.Arrays.D.C203_overflow",
    "Verif.Arrays.D.C203_signed"
   ],
   "note": "sparse matrices in canonical format (no duplicates); results are given by columns"
  },
  {
   "property": "C204",
   "status": "proved",
   "theorems": [
    "Verif.Datasets.C204_meta",
    "Verif.Datasets.C204_choreo2",
    "Verif.Datasets.C204_choreo2_config",
    "Verif.Datasets.C204_acorns",
    "Verif.Datasets.C204_year",
    "Verif.Datasets.C204_objects",
    "Verif.Datasets.C204_objects_config",
    "Verif.Datasets.C204_vctk",
    "Verif.Datasets.C204_parse_acorns"
   ],
   "note": "a retrieval which fails writes nothing; writing fails only for missing directories"
  },
  {
   "property": "C205",
   "status": "proved",
   "theorems": [
    "Verif.Evaluation.D.C205_label_reco",
    "Verif.Evaluation.D.C205_threshold",
    "Verif.Evaluation.D.C205_threshold_score",
    "Verif.Evaluation.D.C205_given_nb",
    "Verif.Evaluation.D.C205_given_nb_score",
    "Verif.Evaluation.D.C205_evaluate_NN",
    "Verif.Evaluation.D.C205_nearest",
    "Verif.Evaluation.D.C205_frobenius",
    "Verif.Evaluation.D.C205_cosine",
    "Verif.Evaluation.D.C205_kl",
    "Verif.Evaluation.D.C205_square"
   ],
   "note": "at most 2^53 rows; margins for nearest examples are those of C199, C200 and C201"
  },
  {
   "property": "C206",
   "status": "proved",
   "theorems": [
    "Verif.Evaluation.D.C206_error",
    "Verif.Evaluation.D.C206_range",
    "Verif.Evaluation.D.C206_nan",
    "Verif.Evaluation.D.C206_upper"
   ],
   "note": "logarithms within 4 ulp (IsLog); numbers at most 2^400 for the bound of the error"
  },
  {
   "property": "C207",
   "status": "proved",
   "theorems": [
    "Verif.Evaluation.D.C207_assertion",
    "Verif.Evaluation.D.C207_conditional",
    "Verif.Evaluation.D.C207_conditional_range",
    "Verif.Evaluation.D.C207_mutual",
    "Verif.Evaluation.D.C207_mutual_range",
    "Verif.Evaluation.D.C207_underflow"
   ],
   "note": "logarithms within 4 ulp (IsLog); the case between 2^-19 and 2^-15 of the assertion depends on rounding; entries between 0 and 2^-500 are covered for totals at most 2^-539 only"
  },
  {
   "property": "C208",
   "status": "proved",
   "theorems": [
    "Verif.Window.H.C208_copy",
    "Verif.Window.H.C208_get_subwindow",
    "Verif.Window.H.C208_move",
    "Verif.Window.H.C208_align",
    "Verif.Window.H.C208_independent",
    "Verif.Window.H.C208_repeated",
    "Verif.Window.H.C208_get_subwindow_at",
    "Verif.Window.H.C208_moved",
    "Verif.Window.H.C208_append",
    "Verif.Window.H.C208_copy_shares",
    "Verif.Window.H.C208_sub_shares",
    "Verif.Window.H.C208_to_array",
    "Verif.Window.H.C208_reach"
   ],
   "note": "times are exact numbers; concatenations of concatenations are left out, as in C10-C13"
  },
  {
   "property": "C209",
   "status": "proved",
   "theorems": [
    "Verif.Logger.H.C209_merge",
    "Verif.Logger.H.C209_merge_empty",
    "Verif.Logger.H.C209_merge_fails",
    "Verif.Logger.H.C209_merge_itself",
    "Verif.Logger.H.C209_merge_again",
    "Verif.Logger.H.C209_store",
    "Verif.Logger.H.C209_store_distinct",
    "Verif.Logger.H.C209_new_run",
    "Verif.Logger.H.C209_store_result",
    "Verif.Logger.H.C209_store_global",
    "Verif.Logger.H.C209_reach",
    "Verif.Logger.H.C209_new",
    "Verif.Logger.H.C209_shared"
   ],
   "note": "stored values themselves are not objects: arrays modified after they were stored are left out"
  },
  {
   "property": "C210",
   "status": "proved",
   "theorems": [
    "Verif.Window.C210_zero",
    "Verif.Window.C210_negative",
    "Verif.Window.C210_small",
    "Verif.Window.C210_slider_negative",
    "Verif.Window.C210_slider_partials_negative",
    "Verif.Window.C210_slider_small",
    "Verif.Window.C210_frames_negative",
    "Verif.Window.C210_negative_rate"
   ],
   "note": "exact numbers; completes C02-C04 and C15. The period of negative rates is above the tolerance"
  },
  {
   "property": "C211",
   "status": "proved",
   "theorems": [
    "Verif.KDE.C211_negative",
    "Verif.KDE.C211_dropped",
    "Verif.KDE.C211_bins",
    "Verif.KDE.C211_almost_nonneg",
    "Verif.KDE.C211_first",
    "Verif.KDE.C211_exact",
    "Verif.KDE.C211_point"
   ],
   "note": "no overflow; floats used as indices as numpy before 1.12 allows"
  },
  {
   "property": "C212",
   "status": "proved",
   "theorems": [
    "Verif.KDE.C212_both",
    "Verif.KDE.C212_sizes",
    "Verif.KDE.C212_exact"
   ],
   "note": "sizes only; the values of the kernel with rounded exponentials are not modelled. C106 describes the values without rounding"
  },
  {
   "property": "C213",
   "status": "proved",
   "theorems": [
    "Verif.Window.C213_null_duration",
    "Verif.Window.C213_reversed",
    "Verif.Window.C213_samples_error",
    "Verif.Window.C213_align_gap",
    "Verif.Window.C213_built",
    "Verif.Window.C213_bounds",
    "Verif.Window.C213_move",
    "Verif.Window.C213_copy",
    "Verif.Window.C213_crop",
    "Verif.Window.C213_crop_filled",
    "Verif.Window.C213_samples",
    "Verif.Window.C213_lookup",
    "Verif.Window.C213_align"
   ],
   "note": "objects are values: a window which appears twice in a tree is not modelled; gaps within the tolerance are covered for constructors, bounds, moves and samples, not for sub-windows"
  },
  {
   "property": "C214",
   "status": "proved",
   "theorems": [
    "Verif.KDE.C214_default",
    "Verif.KDE.C214_estimate",
    "Verif.KDE.C214_exact",
    "Verif.KDE.C214_unsmoothed",
    "Verif.KDE.C214_entropy",
    "Verif.KDE.C214_divergence",
    "Verif.KDE.C214_estimate2",
    "Verif.KDE.C214_relative"
   ],
   "note": "other operations are exact; widths whose square is out of the range of doubles are not modelled"
  },
  {
   "property": "C215",
   "status": "proved",
   "theorems": [
    "Verif.Evaluation.C215_given_nb",
    "Verif.Evaluation.C215_wide_labels",
    "Verif.Evaluation.C215_ignored",
    "Verif.Evaluation.C215_dimensions",
    "Verif.Evaluation.C215_scores",
    "Verif.Evaluation.C215_threshold"
   ],
   "note": "arrays of at most two dimensions and exact numbers; the class of the exception for thresholds, which depends on the version of numpy, is a parameter"
  },
  {
   "property": "C216",
   "status": "proved",
   "theorems": [
    "Verif.Munkres.C216_weight",
    "Verif.Munkres.C216_square",
    "Verif.Munkres.C216_brute_force_square",
    "Verif.Munkres.C216_min_weight_fewer_rows",
    "Verif.Munkres.C216_min_weight_more_rows",
    "Verif.Munkres.C216_brute_force",
    "Verif.Munkres.C216_one_row"
   ],
   "note": "exact weights; the class of the exception for an index None, which depends on the version of numpy, is a parameter"
  },
  {
   "property": "C217",
   "status": "proved",
   "theorems": [
    "Verif.Logger.C217_outcome",
    "Verif.Logger.C217_no_file",
    "Verif.Logger.C217_without_arrays",
    "Verif.Logger.C217_with_arrays",
    "Verif.Logger.C217_saved_again",
    "Verif.Logger.C217_mixture"
   ],
   "note": "files are complete or not: a part of a JSON document is never a document, and the class of the exception for an incomplete archive is not claimed; file names which do not end with .npz (see C72)"
  },
  {
   "property": "C218",
   "status": "proved",
   "theorems": [
    "Verif.NDArray.C218_all_distances",
    "Verif.NDArray.C218_columns",
    "Verif.NDArray.C218_dimensions",
    "Verif.NDArray.C218_vector",
    "Verif.NDArray.C218_axis",
    "Verif.NDArray.C218_real",
    "Verif.NDArray.C218_table"
   ],
   "note": "operations on numbers are parameters; the order of additions is taken to depend on the number of values only; normalize=True is not in it (see C41)"
  },
  {
   "property": "C219",
   "status": "proved",
   "theorems": [
    "Verif.NDArray.C219_conditional_entropy",
    "Verif.NDArray.C219_vector",
    "Verif.NDArray.C219_errors",
    "Verif.NDArray.C219_nonneg",
    "Verif.NDArray.C219_hoyer",
    "Verif.NDArray.C219_hoyer_range",
    "Verif.NDArray.C219_hoyer_axis",
    "Verif.NDArray.C219_matrices"
   ],
   "note": "real numbers; the TypeError for vectors is that of numpy from version 1.12 (a product of no length is a float)"
  },
  {
   "property": "C220",
   "status": "proved",
   "theorems": [
    "Verif.Experiment.C220_other",
    "Verif.Experiment.C220_letters",
    "Verif.Experiment.C220_digits",
    "Verif.Experiment.C220_parameters"
   ],
   "note": "int reads ASCII digits with a sign and spaces around; underscores and other digits of Unicode are left out"
  },
  {
   "property": "C221",
   "status": "proved",
   "theorems": [
    "Verif.Metrics.C221_apart",
    "Verif.Metrics.C221_same",
    "Verif.Metrics.C221_last",
    "Verif.Metrics.C221_overlap",
    "Verif.Metrics.C221_integers"
   ],
   "note": "arrays have no position twice; C221_overlap is a witness"
  },
  {
   "property": "C222",
   "status": "proved",
   "theorems": [
    "Verif.KDE.C222_negative",
    "Verif.KDE.C222_dropped",
    "Verif.KDE.C222_bins",
    "Verif.KDE.C222_almost_nonneg",
    "Verif.KDE.C222_first",
    "Verif.KDE.C222_exact",
    "Verif.KDE.C222_point"
   ],
   "note": "overflow is not modelled; C222_negative and C222_dropped are witnesses with doubles"
  },
  {
   "property": "C223",
   "status": "proved",
   "theorems": [
    "Verif.KDE.C223_displaced",
    "Verif.KDE.C223_odd",
    "Verif.KDE.C223_centre",
    "Verif.KDE.C223_axes"
   ],
   "note": "values of the kernel and convolution are exact in C223_displaced; the grid of the kernel is rounded in C223_centre; C223_axes is a witness with doubles"
  },
  {
   "property": "C224",
   "status": "proved",
   "theorems": [
    "Verif.Utils.C224_splits",
    "Verif.Utils.C224_sizes",
    "Verif.Utils.C224_overflow",
    "Verif.Utils.C224_lost",
    "Verif.Utils.C224_exact"
   ],
   "note": "conversion of n_samples to a float is exact in this range; C224_lost are witnesses with doubles"
  },
  {
   "property": "C225",
   "status": "proved",
   "theorems": [
    "Verif.Utils.C225_filter",
    "Verif.Utils.C225_constants",
    "Verif.Utils.C225_velocities",
    "Verif.Utils.C225_sign",
    "Verif.Utils.C225_cycle",
    "Verif.Utils.C225_normalize"
   ],
   "note": "overflow to infinity is not modelled; C225_constants and C225_cycle are witnesses with doubles"
  },
  {
   "property": "C226",
   "status": "proved",
   "theorems": [
    "Verif.Arrays.C226_argument",
    "Verif.Arrays.C226_again",
    "Verif.Arrays.C226_failures",
    "Verif.Arrays.C226_formats",
    "Verif.Arrays.C226_counts"
   ],
   "note": "values are exact; numpy at least 1.10 for in-place division of integers by floats"
  },
  {
   "property": "C227",
   "status": "proved",
   "theorems": [
    "Verif.Features.D.C227_weights",
    "Verif.Features.D.C227_order",
    "Verif.Features.D.C227_centroid",
    "Verif.Features.D.C227_nan",
    "Verif.Features.D.C227_overflow",
    "Verif.Features.D.C227_associate",
    "Verif.Features.D.C227_collapse"
   ],
   "note": "np.exp is a parameter with the contract `IsExp`: doubles from 0 to 1, 0 below -746, normal above -702, and increasing where stated"
  },
  {
   "property": "C228",
   "status": "proved",
   "theorems": [
    "Verif.Geom.D.C228_norm",
    "Verif.Geom.D.C228_unit",
    "Verif.Geom.D.C228_bound",
    "Verif.Geom.D.C228_axis",
    "Verif.Geom.D.C228_tiny",
    "Verif.Geom.D.C228_huge"
   ],
   "note": "products are rounded before they are added (no fused operations); square roots are correctly rounded (IsSqrt)"
  },
  {
   "property": "C229",
   "status": "proved",
   "theorems": [
    "Verif.Metrics.D.C229_sparse",
    "Verif.Metrics.D.C229_one",
    "Verif.Metrics.D.C229_huge",
    "Verif.Metrics.D.C229_error",
    "Verif.Metrics.D.C229_range"
   ],
   "note": "the exact value includes the constant EPSILON (the double 1e-8) as in the code; square roots are correctly rounded (IsSqrt)"
  },
  {
   "property": "C230",
   "status": "proved",
   "theorems": [
    "Verif.Utils.C230_filter",
    "Verif.Utils.C230_mean",
    "Verif.Utils.C230_constant",
    "Verif.Utils.C230_velocities",
    "Verif.Utils.C230_unsigned",
    "Verif.Utils.C230_delayed",
    "Verif.Utils.C230_normalize",
    "Verif.Utils.C230_equal"
   ],
   "note": "all arguments have the same type of integers; integer overflow wraps around silently, as for numpy arrays"
  },
  {
   "property": "C231",
   "status": "proved",
   "theorems": [
    "Verif.Datasets.C231_objects",
    "Verif.Motion.C231_complete",
    "Verif.Motion.C231_others",
    "Verif.Motion.C231_interrupted",
    "Verif.Motion.C231_unserialisable"
   ],
   "note": "the exception for an incomplete archive is modelled as ValueError, it depends on its content; an interrupted write leaves an incomplete file which does not parse"
  },
  {
   "property": "C232",
   "status": "proved",
   "theorems": [
    "Verif.Sound.C232_outcome",
    "Verif.Sound.C232_load",
    "Verif.Sound.C232_tag_exists",
    "Verif.Sound.C232_speaker_exists",
    "Verif.Sound.C232_iff",
    "Verif.Sound.C232_twice",
    "Verif.Sound.C232_sort"
   ],
   "note": "files are JSON documents with the keys which write_json writes; how list.sort leaves a list on an exception is a parameter"
  },
  {
   "property": "C233",
   "status": "proved",
   "theorems": [
    "Verif.NMF.C233_restart",
    "Verif.NMF.C233_last",
    "Verif.NMF.C233_negative",
    "Verif.NMF.C233_features",
    "Verif.NMF.C233_refit",
    "Verif.NMF.C233_default"
   ],
   "note": "exact real arithmetic, as C54; the number of components is not zero"
  },
  {
   "property": "C234",
   "status": "proved",
   "theorems": [
    "Verif.Learner.C234_failed",
    "Verif.Learner.C234_restart",
    "Verif.Learner.C234_frame",
    "Verif.Learner.C234_all_failed",
    "Verif.Learner.C234_last",
    "Verif.Learner.C234_untrained",
    "Verif.Learner.C234_reconstruct",
    "Verif.Learner.C234_extra",
    "Verif.Learner.C234_missing"
   ],
   "note": "exact real arithmetic, as C53; nmf_train, which no method reads, is not modelled"
  },
  {
   "property": "C235",
   "status": "proved",
   "theorems": [
    "Verif.Motion.H.C235_add",
    "Verif.Motion.H.C235_extend",
    "Verif.Motion.H.C235_self",
    "Verif.Motion.H.C235_set",
    "Verif.Motion.H.C235_shared",
    "Verif.Motion.H.C235_frame",
    "Verif.Motion.H.C235_new"
   ],
   "note": "marker names and descriptions are values"
  },
  {
   "property": "C236",
   "status": "proved",
   "theorems": [
    "Verif.Motion.C236_occuring",
    "Verif.Motion.C236_description",
    "Verif.Motion.C236_extended"
   ],
   "note": "labels are integers or strings"
  },
  {
   "property": "C237",
   "status": "proved",
   "theorems": [
    "Verif.Experiment.C237_coefs",
    "Verif.Experiment.C237_runs",
    "Verif.Experiment.C237_last",
    "Verif.Experiment.C237_labels",
    "Verif.Experiment.C237_wrong_labels"
   ],
   "note": "evaluations only store results, as those of both classes of experiments do"
  },
  {
   "property": "C238",
   "status": "proved",
   "theorems": [
    "Verif.Learner.D.C238_train",
    "Verif.Learner.D.C238_reconstruct",
    "Verif.Learner.D.C238_trained",
    "Verif.Learner.D.C238_stacked",
    "Verif.Learner.D.C238_dictionaries",
    "Verif.Learner.D.C238_formulas",
    "Verif.Learner.D.C238_overflow",
    "Verif.Learner.D.C238_train_errors",
    "Verif.Learner.D.C238_reconstruct_errors"
   ],
   "note": "data from zero to a power of two, so that nothing overflows; C197 has a case which overflows without such a bound"
  },
  {
   "property": "C239",
   "status": "proved",
   "theorems": [
    "Verif.Learner.D.C239_range",
    "Verif.Learner.D.C239_zero",
    "Verif.Learner.D.C239_train",
    "Verif.Learner.D.C239_zero_train",
    "Verif.Learner.D.C239_set",
    "Verif.Learner.D.C239_accuracy"
   ],
   "note": "data from zero to a power of two"
  },
  {
   "property": "C240",
   "status": "proved",
   "theorems": [
    "Verif.Learner.D.C240_run",
    "Verif.Learner.D.C240_samples",
    "Verif.Learner.D.C240_steps"
   ],
   "note": "data from zero to a power of two; logs are in other properties"
  }
 ]
}