import Verif.Plots.PropsFigures
import Verif.Logger.Lemmas

/-!
# Properties of the curves made from logs (C179)
-/

namespace Verif.Plots

open Verif Verif.Window

variable {G : Type}

/-! ### Specification -/

/-- The curve of the scores from `a` to `b` of some logs, one for each value of `k`. -/
structure CurveOf (getValues : G → Str → Py (List ℚ)) (ks : List ℚ) (style varStyle : Str)
    (d : (Str × Str) × List G) (c : Curve) : Prop where
  length : c.points.length = ks.length
  points : ∀ (i : ℕ) (k : ℚ), ks[i]? = some k → ∃ g r, d.2[i]? = some g ∧
    getValues g ("score_".toList ++ d.1.1 ++ "2".toList ++ d.1.2) = .ok r ∧
    c.points[i]? = some (k, mean r, variance r)
  color : (d.1, c.color) ∈ PAIRS_COLORS
  style : c.style = style
  varStyle : c.varStyle = varStyle
  label : c.label = "['".toList ++ d.1.1 ++ "'] $\\rightarrow$ ['".toList ++ d.1.2 ++ "']".toList

/-- Both directions of each pair of modalities, with the logs of the pair. -/
def directions (log : List ((Str × Str) × List G)) : List ((Str × Str) × List G) :=
  log.flatMap fun x => [((x.1.1, x.1.2), x.2), ((x.1.2, x.1.1), x.2)]

/-- Logs which can be drawn: for each direction a log for each `k`, with as many scores in each. -/
def Drawable (getValues : G → Str → Py (List ℚ)) (ks : List ℚ) (log : List ((Str × Str) × List G)) : Prop :=
  ∀ d ∈ directions log, Named d.1.1 ∧ Named d.1.2 ∧ d.1.1 ≠ d.1.2 ∧ ks.length ≤ d.2.length ∧
    ∃ n, ∀ g ∈ d.2, ∃ r, getValues g ("score_".toList ++ d.1.1 ++ "2".toList ++ d.1.2) = .ok r ∧ r.length = n

/-! ### Proofs -/

theorem curveKey_pair (a b metric : Str) :
    curveKey ([a], [b]) metric = "score_".toList ++ a ++ "2".toList ++ b := by
  unfold curveKey
  show "score_".toList ++ (a ++ (['2'] ++ b)) = "score_".toList ++ a ++ ['2'] ++ b
  generalize "score_".toList = s
  simp only [List.append_assoc]

theorem label_pair (a b : Str) : modToMod (listRepr [a]) (listRepr [b]) =
    "['".toList ++ a ++ "'] $\\rightarrow$ ['".toList ++ b ++ "']".toList := by
  show (['[', '\''] ++ (a ++ ['\'']) ++ [']']) ++ " $\\rightarrow$ ".toList ++ (['[', '\''] ++ (b ++ ['\'']) ++ [']']) =
    ['[', '\''] ++ a ++ ((['\''] ++ [']']) ++ " $\\rightarrow$ ".toList ++ ['[', '\'']) ++ b ++ (['\''] ++ [']'])
  generalize " $\\rightarrow$ ".toList = t
  generalize ['[', '\''] = u
  generalize ['\''] = v
  generalize [']'] = w
  simp only [List.append_assoc]

theorem curve_ok (getValues : G → Str → Py (List ℚ)) (ks : List ℚ) (metric style varStyle : Str)
    (a b : Str) (gs : List G) (ha : Named a) (hb : Named b) (hab : a ≠ b) (hlen : ks.length ≤ gs.length) (n : ℕ)
    (hval : ∀ g ∈ gs, ∃ r, getValues g ("score_".toList ++ a ++ "2".toList ++ b) = .ok r ∧ r.length = n) :
    ∃ c, curveOf getValues gs ([a], [b]) ks metric style varStyle = .ok c ∧
      CurveOf getValues ks style varStyle ((a, b), gs) c := by
  obtain ⟨ps, h1, h2, h3⟩ := C125_curve getValues gs a b ha hb hab ks metric n hlen (by
    intro g hg
    rw [curveKey_pair]
    exact hval g hg)
  obtain ⟨c, hc, hm⟩ := color_pair ha hb hab
  refine ⟨⟨modToMod (listRepr [a]) (listRepr [b]), c, style, varStyle, ps⟩, ?_, h2, ?_, hm, rfl, rfl, label_pair a b⟩
  · unfold curveOf
    rw [h1]
    simp only [bind, Except.bind]
    rw [hc]
    rfl
  · intro i k hk
    obtain ⟨g, r, g1, g2, g3⟩ := h3 i k hk
    rw [curveKey_pair] at g2
    exact ⟨g, r, g1, g2, g3⟩

theorem pairs_ok (getValues : G → Str → Py (List ℚ)) (ks : List ℚ) (metric style varStyle : Str)
    (log : List ((Str × Str) × List G)) (h : Drawable getValues ks log) :
    ∃ cs, log.mapM (pairCurves getValues ks metric style varStyle) = .ok cs ∧ cs.length = log.length ∧
      List.Forall₂ (CurveOf getValues ks style varStyle) (directions log) (cs.flatMap fun c => [c.1, c.2]) := by
  induction log with
  | nil => exact ⟨[], rfl, rfl, .nil⟩
  | cons x log ih =>
    obtain ⟨cs, e, hl, hf⟩ := ih fun d hd => h d (by
      unfold directions at hd ⊢
      rw [List.flatMap_cons]
      exact List.mem_append_right _ hd)
    obtain ⟨h1, h2, h3, h4, n, h5⟩ := h ((x.1.1, x.1.2), x.2) (by simp [directions])
    obtain ⟨_, _, h3', _, n', h5'⟩ := h ((x.1.2, x.1.1), x.2) (by simp [directions])
    obtain ⟨c, c1, c2⟩ := curve_ok getValues ks metric style varStyle _ _ x.2 h1 h2 h3 h4 n h5
    obtain ⟨c', c1', c2'⟩ := curve_ok getValues ks metric style varStyle _ _ x.2 h2 h1 h3' h4 n' h5'
    refine ⟨(c, c') :: cs, ?_, by simp [hl], ?_⟩
    · rw [List.mapM_cons, e]
      unfold pairCurves
      simp only [bind, Except.bind]
      rw [c1]
      simp only []
      rw [c1']
      rfl
    · unfold directions at hf ⊢
      rw [List.flatMap_cons, List.flatMap_cons]
      exact .cons c2 (.cons c2' hf)

/-- **C179.** `plot_k_graphs` draws both directions of each pair, with the means and deviations of scores of the
logs of this pair.  The argument `metric` has no effect. -/
theorem C179_k_graphs (getValues : G → Str → Py (List ℚ)) (log : List ((Str × Str) × List G)) (ks : List ℚ)
    (metric : Str) (h : Drawable getValues ks log) :
    ∃ cs, plotKGraphs getValues log ks metric = .ok cs ∧
      List.Forall₂ (CurveOf getValues ks "-".toList "fill".toList) (directions log) cs ∧
      ∀ metric', plotKGraphs getValues log ks metric' = .ok cs := by
  obtain ⟨cs, e, _, hf⟩ := pairs_ok getValues ks metric "-".toList "fill".toList log h
  have main : plotKGraphs getValues log ks metric = .ok (cs.flatMap fun c => [c.1, c.2]) := by
    unfold plotKGraphs
    rw [e]
    rfl
  exact ⟨_, main, hf, fun metric' => main⟩

theorem take_name {a t : Str} (h : ' ' ∉ a) : (a ++ ' ' :: t).takeWhile (fun c => c != ' ') = a := by
  induction a with
  | nil => rfl
  | cons x a ih =>
    rw [List.mem_cons, not_or] at h
    rw [List.cons_append, List.takeWhile_cons_of_pos (by simpa using Ne.symm h.1), ih h.2]

theorem named_space {a : Str} (h : Named a) : ' ' ∉ a := by
  rcases h with rfl | rfl | rfl <;> decide +kernel

theorem modToMod_inj {a b a' b' : Str} (h : Named a) (h' : Named a') (e : modToMod a b = modToMod a' b') :
    a = a' ∧ b = b' := by
  have s : ∀ x y : Str, modToMod x y = x ++ ' ' :: ("$\\rightarrow$ ".toList ++ y) := by
    intro x y
    show x ++ (' ' :: "$\\rightarrow$ ".toList) ++ y = _
    generalize "$\\rightarrow$ ".toList = t
    simp
  rw [s, s] at e
  have h1 : a = a' := by
    rw [← take_name (t := "$\\rightarrow$ ".toList ++ b) (named_space h), e, take_name (named_space h')]
  subst h1
  refine ⟨rfl, ?_⟩
  have := List.append_cancel_left e
  rw [List.cons.injEq] at this
  exact List.append_cancel_left this.2

theorem foldl_addLines (xs : List ((Str × Str) × (Curve × Curve))) (acc : Dict Str Curve)
    (h : (dictKeys acc ++ xs.flatMap fun x => [modToMod x.1.1 x.1.2, modToMod x.1.2 x.1.1]).Nodup) :
    xs.foldl addLines acc =
      acc ++ xs.flatMap fun x => [(modToMod x.1.1 x.1.2, x.2.1), (modToMod x.1.2 x.1.1, x.2.2)] := by
  induction xs generalizing acc with
  | nil => simp
  | cons x xs ih =>
    rw [List.flatMap_cons] at h
    have hn := List.nodup_append.1 h
    have h1 : modToMod x.1.1 x.1.2 ∉ dictKeys acc := fun hm => hn.2.2 _ hm _ (by simp) rfl
    have h2 : modToMod x.1.2 x.1.1 ∉ dictKeys (acc ++ [(modToMod x.1.1 x.1.2, x.2.1)]) := by
      unfold dictKeys
      rw [List.map_append, List.mem_append, not_or]
      refine ⟨fun hm => hn.2.2 _ hm _ (by simp) rfl, ?_⟩
      have := hn.2.1
      rw [List.cons_append, List.nodup_cons] at this
      intro hm
      rw [List.map_cons, List.map_nil, List.mem_singleton] at hm
      exact this.1 (List.mem_cons.2 (Or.inl hm.symm))
    rw [List.foldl_cons]
    unfold addLines at ih ⊢
    rw [dictSet_fresh _ _ _ h1, dictSet_fresh _ _ _ h2, ih]
    · simp
    · unfold dictKeys at h ⊢
      simpa using h

theorem log_ok (getValues : G → Str → Py (List ℚ)) (ks : List ℚ) (metric style : Str)
    (log : List ((Str × Str) × List G)) (h : Drawable getValues ks log) :
    ∃ cs d, logCurves getValues ks metric (log, style) = .ok (cs, d) ∧
      List.Forall₂ (CurveOf getValues ks style "bar".toList) (directions log) cs ∧
      (((directions log).map Prod.fst).Nodup → d.map Prod.snd = cs ∧
        d.map Prod.fst = (directions log).map fun x => x.1.1 ++ " $\\rightarrow$ ".toList ++ x.1.2) := by
  obtain ⟨cs, e, hl, hf⟩ := pairs_ok getValues ks metric style "bar".toList log h
  refine ⟨cs.flatMap fun c => [c.1, c.2], ((log.map Prod.fst).zip cs).foldl addLines [], ?_, hf, ?_⟩
  · unfold logCurves
    rw [e]
    rfl
  · intro hn
    have hkeys : ∀ (log : List ((Str × Str) × List G)) (cs : List (Curve × Curve)), cs.length = log.length →
        (((log.map Prod.fst).zip cs).flatMap fun x => [modToMod x.1.1 x.1.2, modToMod x.1.2 x.1.1]) =
          (directions log).map fun x => modToMod x.1.1 x.1.2 := by
      intro log
      induction log with
      | nil => intro cs _; rfl
      | cons x log ih =>
        intro cs hl
        cases cs with
        | nil => cases hl
        | cons c cs =>
          have := ih cs (by simpa using hl)
          unfold directions at this ⊢
          rw [List.map_cons, List.zip_cons_cons, List.flatMap_cons, List.flatMap_cons, this]
          rfl
    have hval : ∀ (log : List ((Str × Str) × List G)) (cs : List (Curve × Curve)), cs.length = log.length →
        (((log.map Prod.fst).zip cs).flatMap fun x =>
          [(modToMod x.1.1 x.1.2, x.2.1), (modToMod x.1.2 x.1.1, x.2.2)]).map Prod.snd =
          cs.flatMap fun c => [c.1, c.2] := by
      intro log
      induction log with
      | nil =>
        intro cs hl
        rw [List.length_nil, List.length_eq_zero_iff] at hl
        subst hl
        rfl
      | cons x log ih =>
        intro cs hl
        cases cs with
        | nil => cases hl
        | cons c cs =>
          rw [List.map_cons, List.zip_cons_cons, List.flatMap_cons, List.flatMap_cons, List.map_append,
            ih cs (by simpa using hl)]
          rfl
    have hnodup : ((directions log).map fun x => modToMod x.1.1 x.1.2).Nodup := by
      have : ((directions log).map fun x => modToMod x.1.1 x.1.2) =
          ((directions log).map Prod.fst).map fun p => modToMod p.1 p.2 := by
        rw [List.map_map]; rfl
      rw [this]
      refine (List.nodup_map_iff_inj_on hn).2 ?_
      intro p hp p' hp' e
      obtain ⟨d, hd, rfl⟩ := List.mem_map.1 hp
      obtain ⟨d', hd', rfl⟩ := List.mem_map.1 hp'
      obtain ⟨e1, e2⟩ := modToMod_inj (h d hd).1 (h d' hd').1 e
      exact Prod.ext e1 e2
    rw [foldl_addLines _ _ (by
      rw [hkeys log cs hl]
      simpa [dictKeys] using hnodup)]
    refine ⟨?_, ?_⟩
    · rw [List.nil_append, hval log cs hl]
    · rw [List.nil_append]
      show _ = (directions log).map fun x => modToMod x.1.1 x.1.2
      rw [← hkeys log cs hl, List.map_flatMap]
      rfl

/-- **C179.** `plot_2k_graphs` draws both directions of each pair of the first two dictionaries of logs, the first one
with solid lines and the second one with dashed lines.  The first legend gives the name of each curve of the first
dictionary, the second legend the meaning of both styles.  Other dictionaries are ignored, and so is the argument
`metric`. -/
theorem C179_2k_graphs (getValues : G → Str → Py (List ℚ)) (log2 log3 : List ((Str × Str) × List G))
    (rest : List (List ((Str × Str) × List G))) (ks : List ℚ) (metric : Str)
    (h2 : Drawable getValues ks log2) (h3 : Drawable getValues ks log3)
    (hn : ((directions log2).map Prod.fst).Nodup) :
    ∃ cs2 cs3 legend, (∀ metric', plot2kGraphs getValues (log2 :: log3 :: rest) ks metric' =
        .ok (cs2 ++ cs3, legend, [("-".toList, "Trained on two modalities.".toList),
          ("--".toList, "Trained on all three modalities.".toList)])) ∧
      List.Forall₂ (CurveOf getValues ks "-".toList "bar".toList) (directions log2) cs2 ∧
      List.Forall₂ (CurveOf getValues ks "--".toList "bar".toList) (directions log3) cs3 ∧
      legend.map Prod.snd = cs2 ∧
      legend.map Prod.fst = (directions log2).map fun x => x.1.1 ++ " $\\rightarrow$ ".toList ++ x.1.2 := by
  obtain ⟨cs2, d2, e2, f2, l2⟩ := log_ok getValues ks metric "-".toList log2 h2
  obtain ⟨cs3, d3, e3, f3, _⟩ := log_ok getValues ks metric "--".toList log3 h3
  refine ⟨cs2, cs3, d2, fun metric' => ?_, f2, f3, (l2 hn).1, (l2 hn).2⟩
  show plot2kGraphs getValues (log2 :: log3 :: rest) ks metric = _
  unfold plot2kGraphs
  have hz : (log2 :: log3 :: rest).zip STYLES = [(log2, "-".toList), (log3, "--".toList)] := by
    unfold STYLES
    rw [List.zip_cons_cons, List.zip_cons_cons, List.zip_nil_right]
  rw [hz]
  rw [List.mapM_cons, List.mapM_cons, List.mapM_nil, e2, e3]
  simp only [bind, Except.bind, pure, Except.pure, List.flatMap_cons, List.flatMap_nil, List.append_nil]
  rfl

/-- **C179.** Without logs `IndexError` is raised. -/
theorem C179_none (getValues : G → Str → Py (List ℚ)) (ks : List ℚ) (metric : Str) :
    plot2kGraphs getValues [] ks metric = .error .indexError := rfl

end Verif.Plots
