import Verif.Experiment.Json
import Verif.Experiment.PropsSerial

/-!
# Property C177: files of parameters of experiments
-/

namespace Verif.Experiment

open Verif Verif.Logger

/-- The same experiment, up to the order of the sets of labels to keep. -/
structure SameExp (e e' : Exp) : Prop where
  modalities : e.modalities = e'.modalities
  loaders : List.Forall₂ SameLdr e.loaders e'.loaders
  k : e.k = e'.k
  coefs : e.coefs = e'.coefs
  iterTrain : e.iterTrain = e'.iterTrain
  iterTest : e.iterTest = e'.iterTest
  shuffleLabels : e.shuffleLabels = e'.shuffleLabels
  runMode : e.runMode = e'.runMode
  debug : e.debug = e'.debug

/-- An experiment built from a dictionary of loaders, with numbered speakers or none. -/
def Built (e : Exp) : Prop :=
  e.modalities.Nodup ∧ e.modalities.length = e.loaders.length ∧ ∀ f l, .acorns (.cfg f l) ∉ e.loaders

theorem mapM_str (l : List Key) : (l.map JVal.str).mapM JVal.asStr = .ok l := by
  induction l with
  | nil => rfl
  | cons a l ih => simp only [List.map_cons, List.mapM_cons, ih]; rfl

theorem mapM_float (l : List (Option ℚ)) : (l.map JVal.float).mapM JVal.asFloat = .ok l := by
  induction l with
  | nil => rfl
  | cons a l ih => simp only [List.map_cons, List.mapM_cons, ih]; rfl

theorem jLoader_toJson (enum : List Key → List Key) (henum : ∀ l x, x ∈ enum l ↔ x ∈ l) (l : Ldr)
    (h : ∀ f l', l ≠ .acorns (.cfg f l')) :
    ∃ l', jLoader (.str l.datasetName) (l.serialize enum).toJson = .ok l' ∧ SameLdr l' l := by
  cases l with
  | acorns s =>
    cases s with
    | none => exact ⟨_, rfl, .acorns _⟩
    | num n => exact ⟨_, rfl, .acorns _⟩
    | cfg f l => exact absurd rfl (h f l)
  | choreo2 => exact ⟨_, rfl, .choreo2⟩
  | objects f l =>
    refine ⟨.objects f (enum l), ?_, .objects (henum l)⟩
    show (do
      let f ← (f.map JVal.str).mapM JVal.asStr
      let l ← ((enum l).map JVal.str).mapM JVal.asStr
      return Ldr.objects f l) = _
    rw [mapM_str, mapM_str]
    rfl

theorem foldlM_jAdd (enum : List Key → List Key) (henum : ∀ l x, x ∈ enum l ↔ x ∈ l) (ms : List Key) :
    ∀ (ls : List Ldr) (acc : Dict Key Ldr), ms.length = ls.length → (dictKeys acc ++ ms).Nodup →
    (∀ f l, .acorns (.cfg f l) ∉ ls) →
    ∃ ls', ((ms.map JVal.str).zip (ls.map fun l => JVal.arr [.str l.datasetName, (l.serialize enum).toJson])).foldlM
        jAddLoader acc = .ok (acc ++ ms.zip ls') ∧ List.Forall₂ SameLdr ls' ls := by
  induction ms with
  | nil =>
    intro ls acc hl _ _
    obtain rfl := List.length_eq_zero_iff.1 hl.symm
    exact ⟨[], by simp; rfl, .nil⟩
  | cons m ms ih =>
    intro ls acc hl hn hc
    cases ls with
    | nil => cases hl
    | cons l ls =>
      obtain ⟨l', h1, h2⟩ := jLoader_toJson enum henum l fun f l' e => hc f l' (by rw [e]; simp)
      have hk : m ∉ dictKeys acc := by
        intro hk
        rw [List.nodup_append] at hn
        exact hn.2.2 m hk m (by simp) rfl
      obtain ⟨ls', h3, h4⟩ := ih ls (acc ++ [(m, l')]) (by simpa using hl) (by simpa [dictKeys] using hn)
        fun f l' h => hc f l' (List.mem_cons_of_mem _ h)
      refine ⟨l' :: ls', ?_, .cons h2 h4⟩
      have hadd : jAddLoader acc (.str m, .arr [.str l.datasetName, (l.serialize enum).toJson]) =
          .ok (acc ++ [(m, l')]) := by
        show (do
          let l ← jLoader (.str l.datasetName) (l.serialize enum).toJson
          return dictSet acc m l) = _
        rw [h1]
        show Except.ok (dictSet acc m l') = _
        rw [dictSet_fresh acc m l' hk]
      simp only [List.map_cons, List.zip_cons_cons, List.foldlM_cons]
      rw [hadd]
      show List.foldlM jAddLoader (acc ++ [(m, l')]) _ = _
      rw [h3]
      simp

/-- **C177.** The file of parameters of an experiment gives back the same experiment. -/
theorem C177_round_trip (enum : List Key → List Key) (henum : ∀ l x, x ∈ enum l ↔ x ∈ l) (fs : PFS) (e : Exp)
    (h : Built e) (path : Key) :
    ∃ e', loadFromSerialized (saveSerialized enum fs e path) path = .ok e' ∧ SameExp e' e ∧
      ∀ q, q ≠ path → loadFromSerialized (saveSerialized enum fs e path) q = loadFromSerialized fs q := by
  obtain ⟨h1, h2, h3⟩ := h
  obtain ⟨ls', g1, g2⟩ := foldlM_jAdd enum henum e.modalities e.loaders [] h2 (by simpa [dictKeys] using h1) h3
  rw [List.nil_append] at g1
  have hlen : e.modalities.length = ls'.length := by rw [h2, g2.length_eq]
  have hkeys : dictKeys (e.modalities.zip ls') = e.modalities := List.map_fst_zip hlen.le
  refine ⟨Exp.new (e.modalities.zip ls') e.k e.iterTrain e.iterTest e.coefs e.shuffleLabels e.runMode e.debug, ?_,
    ⟨hkeys, ?_, rfl, rfl, rfl, rfl, rfl, rfl, rfl⟩, ?_⟩
  · unfold loadFromSerialized saveSerialized
    rw [if_pos rfl]
    have hcoefs : (match e.coefs with | none => JVal.null | some l => .arr (l.map .float)).asCoefs = .ok e.coefs := by
      cases e.coefs with
      | none => rfl
      | some l =>
        show (do
          let l ← (l.map JVal.float).mapM JVal.asFloat
          return some l) = _
        rw [mapM_float]
        rfl
    have hmode : e.runMode.toJson.asMode = .ok e.runMode := by
      cases e.runMode with
      | other s =>
        show (if h1 : s.1 = _ then _ else if h2 : s.1 = _ then _ else _) = _
        rw [dif_neg s.2.1, dif_neg s.2.2]
      | _ => rfl
    have hnat : ∀ n : ℕ, (JVal.int n).asNat = .ok n := by
      intro n
      show (if (0 : ℤ) ≤ n then Except.ok (n : ℤ).toNat else .error .typeError) = _
      rw [if_pos (by omega)]
      rfl
    show (do
      let loaders ← ((e.modalities.map JVal.str).zip
        (e.loaders.map fun l : Ldr => JVal.arr [.str l.datasetName, (l.serialize enum).toJson])).foldlM jAddLoader []
      let k ← (JVal.int e.k).asNat
      let itrain ← (JVal.int e.iterTrain).asNat
      let itest ← (JVal.int e.iterTest).asNat
      let coefs ← (match e.coefs with | none => JVal.null | some l => .arr (l.map .float)).asCoefs
      let mode ← e.runMode.toJson.asMode
      return Exp.new loaders k itrain itest coefs e.shuffleLabels mode e.debug) = _
    rw [g1, hnat, hnat, hnat, hcoefs, hmode]
    rfl
  · show List.Forall₂ SameLdr ((dictKeys (e.modalities.zip ls')).filterMap (dictGet? (e.modalities.zip ls'))) _
    rw [filterMap_get _ (by rw [hkeys]; exact h1), List.map_snd_zip hlen.ge]
    exact g2
  · intro q hq
    unfold loadFromSerialized saveSerialized
    rw [if_neg hq]

/-- **C177.** Without a file `IOError` is raised, without names of modalities or without loaders `KeyError`. -/
theorem C177_missing (fs : PFS) (path : Key) :
    (fs path = none → loadFromSerialized fs path = .error .ioError) ∧
    ∀ d, fs path = some d →
      (dictGet? d "modalities".toList = none → loadFromSerialized fs path = .error .keyError) ∧
      (∀ l, dictGet? d "modalities".toList = some (.arr l) → dictGet? d "loaders".toList = none →
        loadFromSerialized fs path = .error .keyError) := by
  constructor
  · intro h
    unfold loadFromSerialized
    rw [h]
  · intro d hd
    unfold loadFromSerialized
    rw [hd]
    simp only []
    constructor
    · intro h
      unfold jFromSerialized jget
      rw [h]
      rfl
    · intro l h h'
      unfold jFromSerialized jget
      rw [h, h']
      rfl

/-- **C177.** An unknown name of data set raises `ValueError`, whatever the other parameters. -/
theorem C177_unknown (fs : PFS) (path : Key) (d : List (Key × JVal)) (hd : fs path = some d) (m : Key)
    (ms cs : List JVal) (name : Key) (conf : JVal)
    (h1 : dictGet? d "modalities".toList = some (.arr (.str m :: ms)))
    (h2 : dictGet? d "loaders".toList = some (.arr (.arr [.str name, conf] :: cs)))
    (h3 : name ∉ ["acorns".toList, "choreo2".toList, "objects".toList]) :
    loadFromSerialized fs path = .error .valueError := by
  simp only [List.mem_cons, List.not_mem_nil, or_false, not_or] at h3
  unfold loadFromSerialized
  rw [hd]
  simp only []
  unfold jFromSerialized jget
  rw [h1, h2]
  show (do
    let loaders ← List.foldlM jAddLoader [] ((JVal.str m, JVal.arr [.str name, conf]) :: ms.zip cs)
    _) = _
  rw [List.foldlM_cons]
  have : jAddLoader [] (.str m, .arr [.str name, conf]) = .error .valueError := by
    show (do
      let l ← jLoader (.str name) conf
      return dictSet [] m l) = _
    have : jLoader (.str name) conf = .error .valueError := by
      show (if name = "acorns".toList then _ else _) = _
      rw [if_neg h3.1, if_neg h3.2.1, if_neg h3.2.2]
    rw [this]
    rfl
  rw [this]
  rfl

/-- **C177.** A description of a loader which is not a pair raises `ValueError`. -/
theorem C177_not_pair (fs : PFS) (path : Key) (d : List (Key × JVal)) (hd : fs path = some d) (m : JVal)
    (ms cs : List JVal) (c : List JVal) (hc : c.length ≠ 2)
    (h1 : dictGet? d "modalities".toList = some (.arr (m :: ms)))
    (h2 : dictGet? d "loaders".toList = some (.arr (.arr c :: cs))) :
    loadFromSerialized fs path = .error .valueError := by
  unfold loadFromSerialized
  rw [hd]
  simp only []
  unfold jFromSerialized jget
  rw [h1, h2]
  show (do
    let loaders ← List.foldlM jAddLoader [] ((m, JVal.arr c) :: ms.zip cs)
    _) = _
  rw [List.foldlM_cons]
  have : jAddLoader [] (m, .arr c) = .error .valueError := by
    match c, hc with
    | [], _ => rfl
    | [_], _ => rfl
    | [_, _], hc => exact absurd rfl hc
    | _ :: _ :: _ :: _, _ => rfl
  rw [this]
  rfl

/-- A loader without configuration. -/
example : loadFromSerialized (fun _ => some [("modalities".toList, .arr [.str "sound".toList]),
    ("loaders".toList, .arr [.arr [.str "acorns".toList]])]) "a".toList = .error .valueError :=
  C177_not_pair _ _ _ rfl (.str "sound".toList) [] [] [.str "acorns".toList] (by decide) rfl rfl

/-- C177: an experiment with three modalities. -/
example : Built (Exp.new [("motion".toList, .choreo2), ("sound".toList, .acorns (.num 3)),
    ("image".toList, .objects ["SURF".toList] ["cup".toList])] 50 100 60 (some [some 1, none, some (1 / 3)]) true
    (.ratio (1 / 5)) false) := by
  refine ⟨by decide, rfl, ?_⟩
  intro f l h
  have : (Exp.new [("motion".toList, .choreo2), ("sound".toList, .acorns (.num 3)),
    ("image".toList, .objects ["SURF".toList] ["cup".toList])] 50 100 60 (some [some 1, none, some (1 / 3)]) true
    (.ratio (1 / 5)) false).loaders = [.choreo2, .acorns (.num 3), .objects ["SURF".toList] ["cup".toList]] := rfl
  rw [this] at h
  simp at h

end Verif.Experiment
