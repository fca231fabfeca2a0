import Verif.Experiment.PropsComplete

/-!
# Serialization of experiments (C91)
-/

namespace Verif.Experiment

open Verif Verif.Logger

variable {σ α β L Λ : Type}

/-- The same loader: the same parameters, with the same set of labels. -/
inductive SameLdr : Ldr → Ldr → Prop
  | acorns (s) : SameLdr (.acorns s) (.acorns s)
  | choreo2 : SameLdr .choreo2 .choreo2
  | objects {f l l'} : (∀ x, x ∈ l ↔ x ∈ l') → SameLdr (.objects f l) (.objects f l')

theorem getLoader_serialize (enum : List Key → List Key) (henum : ∀ l x, x ∈ enum l ↔ x ∈ l)
    (l : Ldr) : ∃ l', getLoader l.datasetName (l.serialize enum) = .ok l' ∧ SameLdr l' l := by
  cases l with
  | acorns s => exact ⟨_, rfl, .acorns s⟩
  | choreo2 => exact ⟨_, rfl, .choreo2⟩
  | objects f l => exact ⟨_, rfl, .objects (henum l)⟩

theorem foldlM_addLoader (enum : List Key → List Key) (henum : ∀ l x, x ∈ enum l ↔ x ∈ l)
    (d : Dict Key Ldr) (acc : Dict Key Ldr) (hn : (dictKeys acc ++ dictKeys d).Nodup) :
    ∃ d', ((dictKeys d).zip ((d.map Prod.snd).map fun l => (l.datasetName, l.serialize enum))).foldlM
        addLoader acc = .ok (acc ++ d') ∧ dictKeys d' = dictKeys d ∧
      List.Forall₂ SameLdr (d'.map Prod.snd) (d.map Prod.snd) := by
  induction d generalizing acc with
  | nil => exact ⟨[], by simp [dictKeys]; rfl, rfl, .nil⟩
  | cons kv d ih =>
    obtain ⟨k, l⟩ := kv
    obtain ⟨l', hl, hs⟩ := getLoader_serialize enum henum l
    have hk : k ∉ dictKeys acc := by
      intro hk
      rw [List.nodup_append] at hn
      exact hn.2.2 k hk k (by simp [dictKeys]) rfl
    obtain ⟨d', h1, h2, h3⟩ := ih (acc ++ [(k, l')]) (by simpa [dictKeys] using hn)
    refine ⟨(k, l') :: d', ?_, by simp only [dictKeys, List.map_cons] at h2 ⊢; rw [h2], .cons hs h3⟩
    have hadd : addLoader acc (k, l.datasetName, l.serialize enum) = .ok (acc ++ [(k, l')]) := by
      unfold addLoader
      show (do let x ← getLoader l.datasetName (l.serialize enum); return dictSet acc k x) = _
      rw [hl]
      show Except.ok (dictSet acc k l') = _
      rw [dictSet_fresh acc k l' hk]
    simp only [dictKeys, List.map_cons, List.zip_cons_cons, List.foldlM_cons] at h1 ⊢
    rw [hadd]
    show List.foldlM addLoader (acc ++ [(k, l')]) _ = _
    rw [h1]
    simp

theorem filterMap_get (d : Dict Key Ldr) (hn : (dictKeys d).Nodup) :
    (dictKeys d).filterMap (dictGet? d) = d.map Prod.snd := by
  have key : ∀ e : Dict Key Ldr, (∀ kv ∈ e, kv ∈ d) →
      (dictKeys e).filterMap (dictGet? d) = e.map Prod.snd := by
    intro e
    induction e with
    | nil => exact fun _ => rfl
    | cons kv e ih =>
      intro h
      simp only [dictKeys, List.map_cons]
      rw [List.filterMap_cons_some (dictGet?_mem hn (k := kv.1) (v := kv.2) (h kv List.mem_cons_self))]
      have := ih fun x hx => h x (List.mem_cons_of_mem _ hx)
      unfold dictKeys at this
      rw [this]
  exact key d fun _ h => h

/-- **C91.** Serializing the parameters of an experiment (built from any dictionary of loaders) and
building an experiment from them gives the same modalities in the same order, the same loaders, and
the same parameters. -/
theorem C91_round_trip (enum : List Key → List Key) (henum : ∀ l x, x ∈ enum l ↔ x ∈ l)
    (loaders : Dict Key Ldr) (hn : (dictKeys loaders).Nodup) (k iterTrain iterTest : ℕ)
    (coefs : Option (List (Option ℚ))) (shuffleLabels : Bool) (runMode : RunMode) (debug : Bool)
    (e : Exp) (he : e = Exp.new loaders k iterTrain iterTest coefs shuffleLabels runMode debug) :
    ∃ e', fromSerialized (e.serializeParameters enum : Dict Key (LogVal L)) = .ok e' ∧
      e'.modalities = e.modalities ∧ List.Forall₂ SameLdr e'.loaders e.loaders ∧ e'.k = e.k ∧
      e'.coefs = e.coefs ∧ e'.iterTrain = e.iterTrain ∧ e'.iterTest = e.iterTest ∧
      e'.shuffleLabels = e.shuffleLabels ∧ e'.runMode = e.runMode ∧ e'.debug = e.debug := by
  subst he
  obtain ⟨d', h1, h2, h3⟩ := foldlM_addLoader enum henum loaders [] (by simpa [dictKeys] using hn)
  rw [List.nil_append] at h1
  have hn' : (dictKeys d').Nodup := by rw [h2]; exact hn
  refine ⟨Exp.new d' k iterTrain iterTest coefs shuffleLabels runMode debug, ?_, h2, ?_, rfl, rfl, rfl,
    rfl, rfl, rfl, rfl⟩
  · have hl : (Exp.new loaders k iterTrain iterTest coefs shuffleLabels runMode debug).loaders =
        loaders.map Prod.snd := filterMap_get loaders hn
    unfold fromSerialized Exp.serializeParameters
    rw [hl]
    show (do
      let d ← ((dictKeys loaders).zip ((loaders.map Prod.snd).map fun (l : Ldr) =>
        (l.datasetName, l.serialize enum))).foldlM addLoader []
      return Exp.new d k iterTrain iterTest coefs shuffleLabels runMode debug) = _
    rw [h1]
    rfl
  · show List.Forall₂ SameLdr ((dictKeys d').filterMap (dictGet? d'))
      ((dictKeys loaders).filterMap (dictGet? loaders))
    rw [filterMap_get d' hn', filterMap_get loaders hn]
    exact h3

/-- **C91.** Unknown data sets are refused. -/
theorem C91_unknown (dataset : Key) (conf : Conf) (h1 : dataset ≠ "acorns".toList)
    (h2 : dataset ≠ "choreo2".toList) (h3 : dataset ≠ "objects".toList) :
    getLoader dataset conf = .error .valueError := by
  unfold getLoader
  rw [if_neg h1, if_neg h2, if_neg h3]

example : ∃ e', fromSerialized ((Exp.new [("motion".toList, .choreo2),
    ("sound".toList, .acorns (.num 3)), ("image".toList, .objects ["SURF".toList] ["cup".toList])] 50 100
    60 none true (.ratio (1 / 5)) false).serializeParameters id : Dict Key (LogVal ℕ)) = .ok e' ∧
    e'.modalities = ["motion".toList, "sound".toList, "image".toList] ∧
    e'.loaders = [.choreo2, .acorns (.num 3), .objects ["SURF".toList] ["cup".toList]] :=
  ⟨_, rfl, rfl, rfl⟩

end Verif.Experiment
