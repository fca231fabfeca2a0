import Verif.Samples.Actions
import Verif.Samples.PropsLauncher
import Verif.Plots.PropsCurves

/-!
# Properties of the actions of the launcher (C180, C181)
-/

namespace Verif.Samples

open Verif.Logger (Key decStr FS load)
open Verif.Experiment (Exp Ldr Log LogVal)
open Verif.Plots (Figure Curve Box Directed Named Shows Ready pairKey mean variance combinations)

variable {L : Type}

/-! ### Specification -/

/-- The name of the score from some modalities to others. -/
def scoreKey (A B : List Key) (suffix : Key) : Key :=
  "score_".toList ++ List.intercalate ['_'] A ++ "2".toList ++ List.intercalate ['_'] B ++ suffix

/-- A dictionary of a run has a score. -/
def Has (d : Dict Key (Logger.Val (LogVal L) Experiment.Mx)) (key : Key) (s : ℚ) : Prop :=
  dictGet? d key = some (.plain (.score (some s)))

/-- What experiments leave in their logs: their modalities and, for their only run, the scores. -/
structure Complete (P : Plan) (logs : Key → Log L) : Prop where
  mods : ∀ n e, (n, e) ∈ allExps P →
    dictGet? (logs n).glob "modalities".toList = some (.plain (.mods e.modalities))
  run : ∀ n e, (n, e) ∈ allExps P → ∃ d, (logs n).exps = [d] ∧
    (∀ x ∈ e.modalities, ∀ y ∈ e.modalities, x ≠ y →
      (∃ s, Has d (scoreKey [x] [y] []) s) ∧ ∃ s, Has d (scoreKey [x] [y] "_cosine".toList) s) ∧
    (e.modalities.length = 3 → ∀ c ∈ combinations e.modalities, ∃ s, Has d (scoreKey c.1 c.2 "_cosine".toList) s)

/-- The values `r` are the scores of all runs of the selected experiments, once each. -/
def RunScores (P : Plan) (logs : Key → Log L) (sel : Key → Exp → Prop) (key : Key) (r : List ℚ) : Prop :=
  ∃ names : List Key, names.length = P.nRun ∧ names.Nodup ∧ (∀ n, n ∈ names ↔ ∃ e, sel n e) ∧
    List.Forall₂ (fun n s => ∃ d, (logs n).exps = [d] ∧ Has d key s) names r

/-- Experiments with two modalities and some `k`. -/
def Sel2 (P : Plan) (m : Key × Key) (k : ℕ) (n : Key) (e : Exp) : Prop :=
  (n, e) ∈ exps2 P ∧ e.modalities = [m.1, m.2] ∧ e.k = k

/-- Experiments with three modalities and some `k`. -/
def Sel3 (P : Plan) (k : ℕ) (n : Key) (e : Exp) : Prop := (n, e) ∈ exps3 P ∧ e.k = k

/-- Experiments with some features of images. -/
def SelImage (P : Plan) (f : List Key) (n : Key) (e : Exp) : Prop :=
  (n, e) ∈ expsImage P ∧ .objects f P.labels ∈ e.loaders

/-! ### Keys -/

theorem pairKey_eq (a b : Key) : pairKey a b = scoreKey [a] [b] "_cosine".toList := by
  rw [← Plots.boxKey_pair, Plots.boxKey_comb]
  rfl

theorem plainKey_eq (a b : Key) : "score_".toList ++ a ++ "2".toList ++ b = scoreKey [a] [b] [] := by
  unfold scoreKey
  generalize "score_".toList = s
  generalize "2".toList = t
  simp [List.intercalate]

/-! ### Values of the collected logs -/

theorem collected_scores {P : Plan} {logs : Key → Log L} {sel : Key → Exp → Prop} {l : Log L} {key : Key}
    (hl : Collected P logs sel l)
    (hsel : ∀ n e, sel n e → ∃ d s, (logs n).exps = [d] ∧ Has d key s) :
    ∃ r, scoresOf l key = .ok r ∧ r.length = P.nRun ∧ RunScores P logs sel key r := by
  obtain ⟨names, h1, h2, h3, h4, -⟩ := hl
  have hex : ∀ n ∈ names, ∃ s, ∃ d, (logs n).exps = [d] ∧ Has d key s := by
    intro n hn
    obtain ⟨e, he⟩ := (h3 n).1 hn
    obtain ⟨d, s, g1, g2⟩ := hsel n e he
    exact ⟨s, d, g1, g2⟩
  choose! f hf using hex
  refine ⟨names.map f, ?_, by simpa using h1, names, h1, h2, h3, ?_⟩
  · have hv : l.getValues key = names.map fun n => some (.plain (.score (some (f n)))) := by
      unfold Logger.Logger.getValues
      rw [h4]
      clear h4 h1 h2 h3
      induction names with
      | nil => rfl
      | cons n names ih =>
        obtain ⟨d, g1, g2⟩ := hf n (by simp)
        rw [List.map_cons, List.map_cons, List.flatten_cons, List.map_append,
          ih fun m hm => hf m (List.mem_cons_of_mem _ hm), g1, List.map_cons, List.map_nil, g2]
        rfl
    unfold scoresOf
    rw [hv, List.mapM_map]
    exact mapM_ok _ _ _ fun n _ => rfl
  · rw [List.forall₂_map_right_iff, List.forall₂_same]
    exact hf

theorem collected_mods {P : Plan} {logs : Key → Log L} {sel : Key → Exp → Prop} {l : Log L} {ms : List Key}
    (hl : Collected P logs sel l)
    (hsel : ∀ n e, sel n e → dictGet? (logs n).glob "modalities".toList = some (.plain (.mods ms))) :
    modalitiesOf l = .ok ms := by
  obtain ⟨names, _, _, h3, _, n, hn, hg⟩ := hl
  obtain ⟨e, he⟩ := (h3 n).1 hn
  unfold modalitiesOf Logger.Logger.getValue
  rw [hg, hsel n e he]
  rfl

theorem mods3_of_exps3 {P : Plan} {n : Key} {e : Exp} (h : (n, e) ∈ exps3 P) :
    e.modalities = ["image".toList, "motion".toList, "sound".toList] := by
  obtain ⟨k, _, i, _, _, rfl⟩ := mem_named.1 h
  rfl

theorem mods_of_image {P : Plan} {n : Key} {e : Exp} (h : (n, e) ∈ expsImage P) :
    e.modalities = ["image".toList, "sound".toList] := by
  obtain ⟨k, _, i, _, _, rfl⟩ := mem_expsImage.1 h
  rfl

theorem mem_all2 {P : Plan} {n : Key} {e : Exp} (h : (n, e) ∈ exps2 P) : (n, e) ∈ allExps P :=
  List.mem_append_left _ (List.mem_append_left _ h)

theorem mem_all3 {P : Plan} {n : Key} {e : Exp} (h : (n, e) ∈ exps3 P) : (n, e) ∈ allExps P :=
  List.mem_append_left _ (List.mem_append_right _ h)

theorem mem_allImage {P : Plan} {n : Key} {e : Exp} (h : (n, e) ∈ expsImage P) : (n, e) ∈ allExps P :=
  List.mem_append_right _ h

section

variable {P : Plan} {logs : Key → Log L} (hc : Complete P logs)
include hc

theorem scores_pair {m : Key × Key} {k : ℕ} {l : Log L} (hl : Collected P logs (Sel2 P m k) l) {a b : Key}
    (ha : a ∈ [m.1, m.2]) (hb : b ∈ [m.1, m.2]) (hab : a ≠ b) (suffix : Key)
    (hs : suffix = [] ∨ suffix = "_cosine".toList) :
    ∃ r, scoresOf l (scoreKey [a] [b] suffix) = .ok r ∧ r.length = P.nRun ∧
      RunScores P logs (Sel2 P m k) (scoreKey [a] [b] suffix) r := by
  refine collected_scores hl fun n e he => ?_
  obtain ⟨d, h1, h2, _⟩ := hc.run n e (mem_all2 he.1)
  rw [he.2.1] at h2
  obtain ⟨⟨s, g1⟩, s', g2⟩ := h2 a ha b hb hab
  rcases hs with rfl | rfl
  · exact ⟨d, s, h1, g1⟩
  · exact ⟨d, s', h1, g2⟩

theorem scores_three {k : ℕ} {l : Log L} (hl : Collected P logs (Sel3 P k) l) {a b : Key}
    (ha : a ∈ ["image".toList, "motion".toList, "sound".toList])
    (hb : b ∈ ["image".toList, "motion".toList, "sound".toList]) (hab : a ≠ b) (suffix : Key)
    (hs : suffix = [] ∨ suffix = "_cosine".toList) :
    ∃ r, scoresOf l (scoreKey [a] [b] suffix) = .ok r ∧ r.length = P.nRun ∧
      RunScores P logs (Sel3 P k) (scoreKey [a] [b] suffix) r := by
  refine collected_scores hl fun n e he => ?_
  obtain ⟨d, h1, h2, _⟩ := hc.run n e (mem_all3 he.1)
  rw [mods3_of_exps3 he.1] at h2
  obtain ⟨⟨s, g1⟩, s', g2⟩ := h2 a ha b hb hab
  rcases hs with rfl | rfl
  · exact ⟨d, s, h1, g1⟩
  · exact ⟨d, s', h1, g2⟩

theorem scores_combinations {k : ℕ} {l : Log L} (hl : Collected P logs (Sel3 P k) l) {c : List Key × List Key}
    (h : c ∈ combinations ["image".toList, "motion".toList, "sound".toList]) :
    ∃ r, scoresOf l (scoreKey c.1 c.2 "_cosine".toList) = .ok r ∧ r.length = P.nRun ∧
      RunScores P logs (Sel3 P k) (scoreKey c.1 c.2 "_cosine".toList) r := by
  refine collected_scores hl fun n e he => ?_
  obtain ⟨d, h1, _, h3⟩ := hc.run n e (mem_all3 he.1)
  rw [mods3_of_exps3 he.1] at h3
  obtain ⟨s, hs⟩ := h3 rfl c h
  exact ⟨d, s, h1, hs⟩

theorem scores_image {f : List Key} {l : Log L} (hl : Collected P logs (SelImage P f) l) {a b : Key}
    (ha : a ∈ ["image".toList, "sound".toList]) (hb : b ∈ ["image".toList, "sound".toList]) (hab : a ≠ b) :
    ∃ r, scoresOf l (scoreKey [a] [b] "_cosine".toList) = .ok r ∧ r.length = P.nRun ∧
      RunScores P logs (SelImage P f) (scoreKey [a] [b] "_cosine".toList) r := by
  refine collected_scores hl fun n e he => ?_
  obtain ⟨d, h1, h2, _⟩ := hc.run n e (mem_allImage he.1)
  rw [mods_of_image he.1] at h2
  obtain ⟨_, s', g2⟩ := h2 a ha b hb hab
  exact ⟨d, s', h1, g2⟩

end

theorem mods_named : ∀ m ∈ ["image".toList, "motion".toList, "sound".toList], Named m := by
  intro m hm
  simp only [List.mem_cons, List.not_mem_nil, or_false] at hm
  exact hm

theorem pair_mods {m : Key × Key} (hm : m ∈ MOD_PAIRS) :
    m.1 ∈ ["image".toList, "motion".toList, "sound".toList] ∧
    m.2 ∈ ["image".toList, "motion".toList, "sound".toList] ∧ m.1 ≠ m.2 := by
  unfold MOD_PAIRS at hm
  simp only [List.mem_cons, List.not_mem_nil, or_false] at hm
  rcases hm with rfl | rfl | rfl
  all_goals exact ⟨by decide, by decide, by decide⟩

/-- A dictionary the keys of which are the pairs. -/
theorem dict_pairs {V : Type} {d : Dict (Key × Key) V} (hk : dictKeys d = MOD_PAIRS) {x : (Key × Key) × V} :
    x ∈ d ↔ x.1 ∈ MOD_PAIRS ∧ dictGet? d x.1 = some x.2 := by
  have hn : (dictKeys d).Nodup := by rw [hk]; decide
  have get : ∀ (d : Dict (Key × Key) V), (dictKeys d).Nodup → ∀ x ∈ d, dictGet? d x.1 = some x.2 := by
    intro d
    induction d with
    | nil => intro _ x hx; cases hx
    | cons y d ih =>
      intro hn x hx
      have hn' := List.nodup_cons.1 (show (y.1 :: dictKeys d).Nodup from hn)
      unfold dictGet?
      rcases List.mem_cons.1 hx with rfl | hx
      · rw [List.find?_cons_of_pos (by simp)]
        rfl
      · have : y.1 ≠ x.1 := fun e => hn'.1 (by rw [e]; exact List.mem_map.2 ⟨x, hx, rfl⟩)
        rw [List.find?_cons_of_neg (by simpa using this)]
        exact ih hn'.2 x hx
  constructor
  · intro hx
    exact ⟨by rw [← hk]; exact List.mem_map.2 ⟨x, hx, rfl⟩, get d hn x hx⟩
  · rintro ⟨h1, h2⟩
    rw [← hk] at h1
    obtain ⟨y, hy, hyx⟩ := List.mem_map.1 h1
    have := get d hn y hy
    rw [hyx, h2] at this
    have e : y = x := Prod.ext hyx (Option.some.inj this).symm
    rw [← e]
    exact hy

theorem forall₂_get {A B : Type} {R : A → B → Prop} {l : List A} {l' : List B} (h : List.Forall₂ R l l') (i : ℕ)
    (a : A) (ha : l[i]? = some a) : ∃ b, l'[i]? = some b ∧ R a b := by
  induction h generalizing i with
  | nil => simp at ha
  | cons h1 _ ih =>
    cases i with
    | zero =>
      simp only [List.getElem?_cons_zero, Option.some.injEq] at ha
      subst ha
      exact ⟨_, rfl, h1⟩
    | succ i =>
      rw [List.getElem?_cons_succ] at ha
      obtain ⟨b, h2, h3⟩ := ih i ha
      exact ⟨b, by rw [List.getElem?_cons_succ]; exact h2, h3⟩

theorem forall₂_mem {A B : Type} {R : A → B → Prop} {l : List A} {l' : List B} (h : List.Forall₂ R l l') {b : B}
    (hb : b ∈ l') : ∃ a ∈ l, R a b := by
  induction h with
  | nil => cases hb
  | cons h1 _ ih =>
    rcases List.mem_cons.1 hb with rfl | hb
    · exact ⟨_, by simp, h1⟩
    · obtain ⟨a, h2, h3⟩ := ih hb
      exact ⟨a, List.mem_cons_of_mem _ h2, h3⟩

theorem forall₂_imp_mem {A B : Type} {R S : A → B → Prop} {l : List A} {l' : List B} (h : List.Forall₂ R l l')
    (hi : ∀ a ∈ l, ∀ b, R a b → S a b) : List.Forall₂ S l l' := by
  induction h with
  | nil => exact .nil
  | cons h1 _ ih =>
    exact .cons (hi _ (by simp) _ h1) (ih fun a ha => hi a (List.mem_cons_of_mem _ ha))

/-- What the boxes of a log show. -/
theorem shows_runs {P : Plan} {logs : Key → Log L} {sel : Key → Exp → Prop} {l : Log L} {mods : List Key}
    {q : List (Key × Key)} {boxes : List Box} (hq : Directed mods q) (hb : List.Forall₂ (Shows scoresOf l) q boxes)
    (hv : ∀ a ∈ mods, ∀ b ∈ mods, a ≠ b → ∃ r, scoresOf l (scoreKey [a] [b] "_cosine".toList) = .ok r ∧
      r.length = P.nRun ∧ RunScores P logs sel (scoreKey [a] [b] "_cosine".toList) r) :
    List.Forall₂ (fun ab (b : Box) => RunScores P logs sel (scoreKey [ab.1] [ab.2] "_cosine".toList) b.values)
      q boxes := by
  refine forall₂_imp_mem hb fun ab hab b h => ?_
  obtain ⟨h1, h2, h3⟩ := (hq.mem ab.1 ab.2).1 hab
  obtain ⟨r, e, _, hr⟩ := hv _ h1 _ h2 h3
  have := h.values
  rw [pairKey_eq, e] at this
  rw [← Except.ok.inj this]
  exact hr

theorem ready_of {P : Plan} {logs : Key → Log L} {sel : Key → Exp → Prop} {l : Log L} {mods : List Key}
    (hn : mods.Nodup) (hs : ∀ m ∈ mods, m ∈ ["image".toList, "motion".toList, "sound".toList])
    (hv : ∀ a ∈ mods, ∀ b ∈ mods, a ≠ b → ∃ r, scoresOf l (scoreKey [a] [b] "_cosine".toList) = .ok r ∧
      r.length = P.nRun ∧ RunScores P logs sel (scoreKey [a] [b] "_cosine".toList) r) : Ready scoresOf l mods := by
  refine ⟨hn, fun m hm => mods_named m (hs m hm), fun x hx y hy hxy => ?_⟩
  obtain ⟨r, h, _⟩ := hv x hx y hy hxy
  exact ⟨r, by rw [pairKey_eq]; exact h⟩

/-! ### Saved logs -/

/-- Logs which are complete are still complete when they are loaded without arrays. -/
theorem complete_plain {P : Plan} {log logs : Key → Log L} (hc : Complete P log)
    (h : ∀ n e, (n, e) ∈ allExps P → List.Forall₂ Logger.PlainOf (logs n).exps (log n).exps ∧
      Logger.PlainOf (logs n).glob (log n).glob) : Complete P logs := by
  constructor
  · intro n e he
    exact ((h n e he).2 _ _).2 ⟨hc.mods n e he, _, rfl⟩
  · intro n e he
    obtain ⟨d, h1, h2, h3⟩ := hc.run n e he
    have hf := (h n e he).1
    rw [h1] at hf
    obtain ⟨d', l, hd, hl, hlog⟩ := List.forall₂_cons_right_iff.1 hf
    rw [List.forall₂_nil_right_iff] at hl
    subst hl
    have keep : ∀ k, (∃ s, Has d k s) → ∃ s, Has d' k s := fun k ⟨s, hs⟩ => ⟨s, (hd _ _).2 ⟨hs, _, rfl⟩⟩
    exact ⟨d', hlog, fun x hx y hy hxy => ⟨keep _ (h2 x hx y hy hxy).1, keep _ (h2 x hx y hy hxy).2⟩,
      fun hl c hcc => keep _ (h3 hl c hcc)⟩

/-! ### The action `plot` -/

/-- **C180.** When all logs are there, the action `plot` makes its four figures.  The curves have, for each pair of
modalities, each direction and each `k`, the mean and deviation of the scores of all runs of experiments with these
modalities and this `k`: solid lines for experiments with these two modalities, which the legend names, dashed lines
for those with three modalities.  Boxes have the cosine scores of all runs of experiments with `k = 50`. -/
theorem C180_plot (wrap : Key → ℕ → List Key) (P : Plan) (h : P.OK) (hn : 0 < P.nRun) (h50 : 50 ∈ P.ks)
    (hsets : P.sets ≠ []) (wd : Key) (fs : Disk L) (logs : Key → Log L) (hd : OnDisk P wd fs logs)
    (hc : Complete P logs) :
    ∃ f, makeFigures wrap fs P (jobsByName P wd) = .ok f ∧
      (∀ m ∈ MOD_PAIRS, ∀ a b, (a, b) = m ∨ (b, a) = m → ∃ c c', c ∈ f.all_k.1 ∧ c' ∈ f.all_k.1 ∧
        c.style = "-".toList ∧ c'.style = "--".toList ∧
        (a ++ " $\\rightarrow$ ".toList ++ b, c) ∈ f.all_k.2.1 ∧
        c.points.length = P.ks.length ∧ c'.points.length = P.ks.length ∧
        ∀ (i k : ℕ), P.ks[i]? = some k → ∃ r r',
          RunScores P logs (Sel2 P m k) (scoreKey [a] [b] []) r ∧ c.points[i]? = some ((k : ℚ), mean r, variance r) ∧
          RunScores P logs (Sel3 P k) (scoreKey [a] [b] []) r' ∧
          c'.points[i]? = some ((k : ℚ), mean r', variance r')) ∧
      f.all_k.1.length = 12 ∧
      (∃ left last, f.one2one.panels = left ++ [last] ∧ left.length = 3 ∧
        (∀ (i : ℕ) m, MOD_PAIRS[i]? = some m → ∃ p q, left[i]? = some p ∧ p.title = m.1 ++ ", ".toList ++ m.2 ∧
          Directed [m.1, m.2] q ∧ List.Forall₂ (fun ab (b : Box) =>
            RunScores P logs (Sel2 P m 50) (scoreKey [ab.1] [ab.2] "_cosine".toList) b.values) q p.boxes) ∧
        ∃ q, Directed ["image".toList, "motion".toList, "sound".toList] q ∧ List.Forall₂ (fun ab (b : Box) =>
            RunScores P logs (Sel3 P 50) (scoreKey [ab.1] [ab.2] "_cosine".toList) b.values) q last.boxes) ∧
      (f.feats.panels.length = P.sets.length ∧ ∀ (i : ℕ) s, P.sets[i]? = some s → ∃ p q, f.feats.panels[i]? = some p ∧
        Directed ["image".toList, "sound".toList] q ∧ List.Forall₂ (fun ab (b : Box) =>
          RunScores P logs (SelImage P s) (scoreKey [ab.1] [ab.2] "_cosine".toList) b.values) q p.boxes) ∧
      List.Forall₂ (fun c (b : Box) => RunScores P logs (Sel3 P 50) (scoreKey c.1 c.2 "_cosine".toList) b.values)
        (combinations ["image".toList, "motion".toList, "sound".toList]) f.all_mod.1 := by
  obtain ⟨d2, e2, k2, g2⟩ := C139_collect_pairs P h hn wd fs logs hd
  obtain ⟨d3, ls3, e3, g3, k3, gg3⟩ := C139_collect_three P h hn wd fs logs hd
  obtain ⟨di, ei, ki, gi⟩ := C139_collect_image P h hn wd fs logs hd
  -- logs of each pair
  have mem2 : ∀ x ∈ d2, x.1 ∈ MOD_PAIRS ∧ List.Forall₂ (fun k l => Collected P logs (Sel2 P x.1 k) l) P.ks x.2 := by
    intro x hx
    obtain ⟨hm, hx2⟩ := (dict_pairs k2).1 hx
    obtain ⟨ls, hls, hf⟩ := g2 x.1 hm
    rw [hx2] at hls
    cases hls
    exact ⟨hm, hf⟩
  have mem3 : ∀ x ∈ d3, x.1 ∈ MOD_PAIRS ∧ x.2 = ls3 := by
    intro x hx
    obtain ⟨hm, hx2⟩ := (dict_pairs k3).1 hx
    rw [gg3 x.1 hm] at hx2
    exact ⟨hm, (Option.some.inj hx2).symm⟩
  have dirs : ∀ (d : Dict (Key × Key) (List (Log L))) (y : (Key × Key) × List (Log L)), y ∈ Plots.directions d →
      ∃ x ∈ d, y.2 = x.2 ∧ (y.1 = x.1 ∨ (y.1.2, y.1.1) = x.1) := by
    intro d y hy
    unfold Plots.directions at hy
    obtain ⟨x, hx, hy⟩ := List.mem_flatMap.1 hy
    simp only [List.mem_cons, List.not_mem_nil, or_false] at hy
    rcases hy with rfl | rfl
    · exact ⟨x, hx, rfl, Or.inl rfl⟩
    · exact ⟨x, hx, rfl, Or.inr rfl⟩
  have sides : ∀ (m ab : Key × Key), m ∈ MOD_PAIRS → (ab = m ∨ (ab.2, ab.1) = m) →
      ab.1 ∈ [m.1, m.2] ∧ ab.2 ∈ [m.1, m.2] ∧ ab.1 ≠ ab.2 ∧
      ab.1 ∈ ["image".toList, "motion".toList, "sound".toList] ∧
      ab.2 ∈ ["image".toList, "motion".toList, "sound".toList] := by
    rintro m ⟨a, b⟩ hm hab
    obtain ⟨p1, p2, p3⟩ := pair_mods hm
    rcases hab with rfl | rfl
    · exact ⟨by simp, by simp, p3, p1, p2⟩
    · exact ⟨by simp, by simp, p3.symm, p2, p1⟩
  have hd2 : Plots.Drawable scoresOf (P.ks.map fun (k : ℕ) => (k : ℚ)) d2 := by
    intro y hy
    obtain ⟨x, hx, hyx, hor⟩ := dirs d2 y hy
    obtain ⟨hm, hf⟩ := mem2 x hx
    obtain ⟨s1, s2, s3, s4, s5⟩ := sides x.1 y.1 hm hor
    refine ⟨mods_named _ s4, mods_named _ s5, s3, ?_, P.nRun, ?_⟩
    · rw [List.length_map, hyx, hf.length_eq]
    · intro l hl
      rw [hyx] at hl
      obtain ⟨k, _, hk⟩ := forall₂_mem hf hl
      obtain ⟨r, r1, r2, _⟩ := scores_pair hc hk s1 s2 s3 [] (Or.inl rfl)
      exact ⟨r, by rw [plainKey_eq]; exact r1, r2⟩
  have hd3 : Plots.Drawable scoresOf (P.ks.map fun (k : ℕ) => (k : ℚ)) d3 := by
    intro y hy
    obtain ⟨x, hx, hyx, hor⟩ := dirs d3 y hy
    obtain ⟨hm, hf⟩ := mem3 x hx
    obtain ⟨s1, s2, s3, s4, s5⟩ := sides x.1 y.1 hm hor
    refine ⟨mods_named _ s4, mods_named _ s5, s3, ?_, P.nRun, ?_⟩
    · rw [List.length_map, hyx, hf, g3.length_eq]
    · intro l hl
      rw [hyx, hf] at hl
      obtain ⟨k, _, hk⟩ := forall₂_mem g3 hl
      obtain ⟨r, r1, r2, _⟩ := scores_three hc hk s4 s5 s3 [] (Or.inl rfl)
      exact ⟨r, by rw [plainKey_eq]; exact r1, r2⟩
  have dirk : ∀ (d : Dict (Key × Key) (List (Log L))), dictKeys d = MOD_PAIRS →
      (Plots.directions d).map Prod.fst = MOD_PAIRS.flatMap fun m => [(m.1, m.2), (m.2, m.1)] := by
    intro d hk
    rw [← hk]
    unfold Plots.directions dictKeys
    rw [List.map_flatMap, List.flatMap_map]
    rfl
  have hnd : ((Plots.directions d2).map Prod.fst).Nodup := by
    rw [dirk d2 k2]
    decide +kernel
  obtain ⟨cs2, cs3, legend, ek, f2, f3, l1, l2⟩ := Plots.C179_2k_graphs scoresOf d2 d3 [] _ "_cosine".toList hd2 hd3 hnd
  -- index of 50
  have h50lt : P.ks.idxOf 50 < P.ks.length := List.idxOf_lt_length_iff.2 h50
  have h50get : P.ks[P.ks.idxOf 50]? = some 50 := by
    rw [List.getElem?_eq_getElem h50lt, List.getElem_idxOf]
  have hidx : indexOf P.ks 50 = .ok (P.ks.idxOf 50) := by
    unfold indexOf
    rw [if_pos h50lt]
  have at50 : ∀ x ∈ d2, ∃ l, x.2[P.ks.idxOf 50]? = some l ∧ Collected P logs (Sel2 P x.1 50) l :=
    fun x hx => forall₂_get (mem2 x hx).2 _ _ h50get
  obtain ⟨l3, hl3, hC3⟩ := forall₂_get g3 _ _ h50get
  haveI : Nonempty (Log L) := ⟨l3⟩
  choose! g hg using at50
  have epairs : d2.mapM (atIndex (P.ks.idxOf 50)) = .ok (d2.map fun x => ([x.1.1, x.1.2], g x)) := by
    refine mapM_ok _ _ _ fun x hx => ?_
    unfold atIndex
    rw [Experiment.pyGet_at (hg x hx).1]
    rfl
  have hpair : ∀ x ∈ d2, ∀ a ∈ [x.1.1, x.1.2], ∀ b ∈ [x.1.1, x.1.2], a ≠ b →
      ∃ r, scoresOf (g x) (scoreKey [a] [b] "_cosine".toList) = .ok r ∧ r.length = P.nRun ∧
        RunScores P logs (Sel2 P x.1 50) (scoreKey [a] [b] "_cosine".toList) r :=
    fun x hx a ha b hb hab => scores_pair hc (hg x hx).2 ha hb hab _ (Or.inr rfl)
  have hthree : ∀ a ∈ ["image".toList, "motion".toList, "sound".toList],
      ∀ b ∈ ["image".toList, "motion".toList, "sound".toList], a ≠ b →
      ∃ r, scoresOf l3 (scoreKey [a] [b] "_cosine".toList) = .ok r ∧ r.length = P.nRun ∧
        RunScores P logs (Sel3 P 50) (scoreKey [a] [b] "_cosine".toList) r :=
    fun a ha b hb hab => scores_three hc hC3 ha hb hab _ (Or.inr rfl)
  have hmods3 : modalitiesOf l3 = .ok ["image".toList, "motion".toList, "sound".toList] := by
    refine collected_mods hC3 fun n e he => ?_
    rw [hc.mods n e (mem_all3 he.1), mods3_of_exps3 he.1]
  have hd2ne : d2 ≠ [] := by
    rintro rfl
    exact List.cons_ne_nil _ _ k2.symm
  obtain ⟨left, last, leg1, eb, b1, b2, _, _, _, ⟨q3, b3, b4, _⟩, _⟩ := Plots.C178_boxes scoresOf modalitiesOf
    (d2.map fun x => ([x.1.1, x.1.2], g x)) l3 ["image".toList, "motion".toList, "sound".toList]
    (by simpa using hd2ne) (by
      intro y hy
      obtain ⟨x, hx, rfl⟩ := List.mem_map.1 hy
      obtain ⟨p1, p2, p3⟩ := pair_mods (mem2 x hx).1
      refine ready_of (by simpa using p3) ?_ (hpair x hx)
      intro m hm
      simp only [List.mem_cons, List.not_mem_nil, or_false] at hm
      rcases hm with rfl | rfl
      · exact p1
      · exact p2) hmods3 (ready_of (by decide) (fun m hm => hm) hthree)
  -- features
  have memi : ∀ x ∈ di, Collected P logs (SelImage P x.1) x.2 := by
    intro x hx
    have hnk : (dictKeys di).Nodup := by rw [ki]; exact h.sets.of_map
    have hmem : x.1 ∈ P.sets := by rw [← ki]; exact List.mem_map.2 ⟨x, hx, rfl⟩
    obtain ⟨l, hl, hcol⟩ := gi x.1 hmem
    have : (x.1, l) ∈ di := by
      unfold dictGet? at hl
      cases hf : di.find? (fun p => decide (p.1 = x.1)) with
      | none => rw [hf] at hl; cases hl
      | some p =>
        rw [hf] at hl
        have h1 := List.mem_of_find?_eq_some hf
        have h2 : p.1 = x.1 := by simpa using List.find?_some hf
        have h3 : p.2 = l := Option.some.inj hl
        rw [← h2, ← h3]
        exact h1
    have e := List.inj_on_of_nodup_map (show (di.map Prod.fst).Nodup from hnk) hx this rfl
    rw [e]
    exact hcol
  have himage : ∀ x ∈ di, ∀ a ∈ ["image".toList, "sound".toList], ∀ b ∈ ["image".toList, "sound".toList], a ≠ b →
      ∃ r, scoresOf x.2 (scoreKey [a] [b] "_cosine".toList) = .ok r ∧ r.length = P.nRun ∧
        RunScores P logs (SelImage P x.1) (scoreKey [a] [b] "_cosine".toList) r :=
    fun x hx a ha b hb hab => scores_image hc (memi x hx) ha hb hab
  have hdine : di ≠ [] := by
    rintro rfl
    exact hsets ki.symm
  obtain ⟨figf, qf, ef, qf1, ff1, ff2, _⟩ := Plots.C178_feats scoresOf wrap di hdine fun x hx =>
    ready_of (by decide) (by
      intro m hm
      simp only [List.mem_cons, List.not_mem_nil, or_false] at hm
      rcases hm with rfl | rfl
      · exact List.mem_cons_self
      · exact List.mem_cons_of_mem _ (List.mem_cons_of_mem _ List.mem_cons_self)) (himage x hx)
  -- combinations
  have hcomb : ∀ c ∈ combinations ["image".toList, "motion".toList, "sound".toList],
      ∃ r, scoresOf l3 (Plots.combKey c) = .ok r ∧
        RunScores P logs (Sel3 P 50) (scoreKey c.1 c.2 "_cosine".toList) r := by
    intro c hcc
    obtain ⟨r, r1, _, r2⟩ := scores_combinations hc hC3 hcc
    exact ⟨r, r1, r2⟩
  obtain ⟨boxes, m1, m2, m3, ea, a1, _⟩ := (Plots.C178_all_mods scoresOf modalitiesOf l3 _ hmods3 (by decide)
    mods_named fun c hcc => ⟨_, (hcomb c hcc).choose_spec.1⟩).1 rfl
  have hitem : Plots.dictItem d3 ("image".toList, "motion".toList) = .ok ls3 := by
    unfold Plots.dictItem
    rw [gg3 _ (by decide)]
  have made : ∃ u v, makeFigures wrap fs P (jobsByName P wd) =
      .ok ⟨(cs2 ++ cs3, legend, u), ⟨left ++ [last], leg1⟩, figf, (boxes, v)⟩ := by
    refine ⟨[("-".toList, "Trained on two modalities.".toList),
      ("--".toList, "Trained on all three modalities.".toList)],
      ((", ".toList).intercalate ["image".toList, "motion".toList, "sound".toList], [m1, m2, m3]), ?_⟩
    unfold makeFigures
    simp only [bind, Except.bind]
    rw [e2]
    simp only []
    rw [e3]
    simp only []
    rw [ei]
    simp only []
    rw [ek]
    simp only []
    rw [hidx]
    simp only []
    rw [epairs]
    simp only []
    rw [hitem]
    simp only []
    rw [Experiment.pyGet_at hl3]
    simp only []
    rw [eb]
    simp only []
    rw [ef]
    simp only []
    rw [ea]
    rfl
  obtain ⟨u, v, made⟩ := made
  refine ⟨_, made, ?_, ?_, ⟨left, last, rfl, ?_, ?_, q3, b3, shows_runs b3 b4 hthree⟩,
    ⟨?_, ?_⟩, ?_⟩
  · intro m hm a b hab
    have find : ∀ (d : Dict (Key × Key) (List (Log L))) (_ : dictKeys d = MOD_PAIRS), ∃ ls, dictGet? d m = some ls ∧
        ((a, b), ls) ∈ Plots.directions d := by
      intro d hk
      have : m ∈ dictKeys d := by rw [hk]; exact hm
      obtain ⟨x, hx, hxm⟩ := List.mem_map.1 this
      refine ⟨x.2, by rw [← hxm]; exact ((dict_pairs hk).1 hx).2, ?_⟩
      unfold Plots.directions
      refine List.mem_flatMap.2 ⟨x, hx, ?_⟩
      rw [hxm]
      rcases hab with rfl | rfl <;> simp
    obtain ⟨s1, s2, s3, s4, s5⟩ := sides m (a, b) hm hab
    obtain ⟨lsa, q1, q2⟩ := find d2 k2
    obtain ⟨lsb, q4, q5⟩ := find d3 k3
    obtain ⟨i2, hi2⟩ := List.getElem?_of_mem q2
    obtain ⟨i3, hi3⟩ := List.getElem?_of_mem q5
    obtain ⟨c, hcg, hC⟩ := forall₂_get f2 i2 _ hi2
    obtain ⟨c', hcg', hC'⟩ := forall₂_get f3 i3 _ hi3
    obtain ⟨lsa', q1', hfa⟩ := g2 m hm
    rw [q1] at q1'
    cases q1'
    rw [gg3 m hm] at q4
    cases q4
    refine ⟨c, c', List.mem_append_left _ (List.mem_of_getElem? hcg), List.mem_append_right _ (List.mem_of_getElem? hcg'),
      hC.style, hC'.style, ?_, by simpa using hC.length, by simpa using hC'.length, ?_⟩
    · have w1 : (legend.map Prod.snd)[i2]? = some c := by rw [l1]; exact hcg
      have w2 : (legend.map Prod.fst)[i2]? = some (a ++ " $\\rightarrow$ ".toList ++ b) := by
        rw [l2, List.getElem?_map, hi2]
        rfl
      rw [List.getElem?_map] at w1 w2
      obtain ⟨y, hy, hy2⟩ := Option.map_eq_some_iff.1 w1
      rw [hy] at w2
      have hy1 := Option.some.inj w2
      rw [← hy1, ← hy2]
      exact List.mem_of_getElem? hy
    · intro i k hk
      have hkq : (P.ks.map fun (k : ℕ) => (k : ℚ))[i]? = some (k : ℚ) := by
        rw [List.getElem?_map, hk]
        rfl
      obtain ⟨l, r, w1, w2, w3⟩ := hC.points i k hkq
      obtain ⟨l', r', w1', w2', w3'⟩ := hC'.points i k hkq
      obtain ⟨lk, v1, v2⟩ := forall₂_get hfa i k hk
      obtain ⟨lk', v1', v2'⟩ := forall₂_get g3 i k hk
      have elk : lk = l := Option.some.inj (v1.symm.trans w1)
      have elk' : lk' = l' := Option.some.inj (v1'.symm.trans w1')
      subst elk elk'
      obtain ⟨ρ, u1, _, u2⟩ := scores_pair hc v2 s1 s2 s3 [] (Or.inl rfl)
      obtain ⟨ρ', u1', _, u2'⟩ := scores_three hc v2' s4 s5 s3 [] (Or.inl rfl)
      rw [plainKey_eq] at w2 w2'
      have er : ρ = r := Except.ok.inj (u1.symm.trans w2)
      have er' : ρ' = r' := Except.ok.inj (u1'.symm.trans w2')
      subst er er'
      exact ⟨ρ, ρ', u2, w3, u2', w3'⟩
  · have w2 : cs2.length = 6 := by
      rw [← f2.length_eq, ← List.length_map (f := Prod.fst), dirk d2 k2]
      rfl
    have w3 : cs3.length = 6 := by
      rw [← f3.length_eq, ← List.length_map (f := Prod.fst), dirk d3 k3]
      rfl
    show (cs2 ++ cs3).length = 12
    rw [List.length_append, w2, w3]
  · rw [b1, List.length_map]
    have := congrArg List.length k2
    simpa [dictKeys, MOD_PAIRS] using this
  · intro i m hm
    rw [← k2] at hm
    unfold dictKeys at hm
    rw [List.getElem?_map] at hm
    obtain ⟨x, hx, rfl⟩ := Option.map_eq_some_iff.1 hm
    obtain ⟨p, q, w1, w2, _, _, w3, w4⟩ := b2 i ([x.1.1, x.1.2], g x) (by rw [List.getElem?_map, hx]; rfl)
    refine ⟨p, q, w1, ?_, w3, shows_runs w3 w4 (hpair x (List.mem_of_getElem? hx))⟩
    rw [w2]
    generalize ", ".toList = t
    simp [List.intercalate, List.intersperse]
  · rw [ff1, ← ki]
    simp [dictKeys]
  · intro i s hs
    rw [← ki] at hs
    unfold dictKeys at hs
    rw [List.getElem?_map] at hs
    obtain ⟨x, hx, rfl⟩ := Option.map_eq_some_iff.1 hs
    obtain ⟨p, w1, _, _, _, w2, _⟩ := ff2 i x hx
    exact ⟨p, qf, w1, qf1, shows_runs qf1 w2 (himage x (List.mem_of_getElem? hx))⟩
  · refine forall₂_imp_mem a1 fun c hcc b hb => ?_
    obtain ⟨r, r1, r2⟩ := hcomb c hcc
    rw [← Except.ok.inj (r1.symm.trans hb.1)]
    exact r2

end Verif.Samples
