import Verif.Corpus.PropsMore

/-!
# Concrete cases for the properties of corpora
-/

namespace Verif.Corpus

/-- White space. -/
def exWs (c : Char) : Bool := c = ' ' || c = '\n' || c = '\t'

/-- A small corpus in the format of VCTK. -/
def exFiles : Files where
  abspath p := '/' :: p
  listdir p := dictGet? [("/c/wav48".toList, ["p1".toList, "x".toList, "p2".toList]), ("/c/txt".toList, ["p1".toList]),
    ("/c/wav48/p1".toList, ["p1_a.wav".toList, "p1_b.wav".toList]),
    ("/c/txt/p1".toList, ["p1_b.txt".toList, "p1_c.txt".toList])] p
  isfile p := p ∈ ["/c/wav48/p1/p1_a.wav".toList, "/c/wav48/p1/p1_b.wav".toList, "/c/txt/p1/p1_b.txt".toList,
    "/c/txt/p1/p1_c.txt".toList]
  isdir p := p ∈ ["/c/wav48/p1".toList, "/c/wav48/p2".toList, "/c/txt/p1".toList]
  exist p := p ∈ ["/c/wav48/p1/p1_a.wav".toList, "/c/wav48/p1/p1_b.wav".toList]
  read p := dictGet? [("/c/speaker-info.txt".toList, "2  23 F English South  East\n".toList),
    ("/c/txt/p1/p1_b.txt".toList, "hello".toList), ("/c/txt/p1/p1_c.txt".toList, "bye".toList)] p

/-- The information on the second speaker. -/
def exInfo : Dict Str Info := [("2".toList, ⟨"23".toList, "F".toList, "English".toList, "South East".toList⟩)]

/-- Hypotheses of `C113_import`, `C116_existing` and `C121_vctk`. -/
example : parseSpeakersInfo exWs exFiles (exFiles.abspath "c".toList) = .ok exInfo ∧
    exFiles.listdir (pathJoin (exFiles.abspath "c".toList) "wav48".toList) =
      some ["p1".toList, "x".toList, "p2".toList] ∧
    GoodListing ["p1".toList, "x".toList, "p2".toList] ∧
    exFiles.listdir (pathJoin (exFiles.abspath "c".toList) "txt".toList) = some ["p1".toList] ∧
    GoodListing ["p1".toList] ∧
    Selected exFiles (exFiles.abspath "c".toList) exInfo "sound".toList "2".toList := by
  refine ⟨by decide +kernel, by decide +kernel, ⟨by decide, by decide⟩, by decide +kernel,
    ⟨by decide, by decide⟩, Or.inl ⟨rfl, _, rfl, by decide, by decide +kernel⟩⟩

/-- Utterances with a sound, a sound and a transcription, a transcription. -/
example : recordsList exFiles "/c/wav48/p1".toList "wav".toList = ["a".toList, "b".toList] ∧
    recordsList exFiles "/c/txt/p1".toList "txt".toList = ["b".toList, "c".toList] ∧
    (recordFor exFiles "/c".toList 0 0 "1".toList "a".toList).audio = some "p1_a.wav".toList ∧
    (recordFor exFiles "/c".toList 0 0 "1".toList "a".toList).trans = none ∧
    (recordFor exFiles "/c".toList 0 0 "1".toList "c".toList).audio = none ∧
    (recordFor exFiles "/c".toList 0 0 "1".toList "c".toList).trans = some "bye".toList := by
  decide +kernel

/-- Files are named as they should. -/
example : Conventional exFiles "/c/wav48/p1".toList "1".toList "wav".toList := by
  intro l f hl hf _ _
  have : l = ["p1_a.wav".toList, "p1_b.wav".toList] := by
    have h : exFiles.listdir "/c/wav48/p1".toList = some ["p1_a.wav".toList, "p1_b.wav".toList] := by
      decide +kernel
    rw [h, Option.some.injEq] at hl
    exact hl.symm
  subst this
  simp only [List.mem_cons, List.not_mem_nil, or_false] at hf
  rcases hf with rfl | rfl
  · exact ⟨"a".toList, by decide, by decide, by decide⟩
  · exact ⟨"b".toList, by decide, by decide, by decide⟩

/-- An extension in upper case gives a name to an utterance whose record has no sound. -/
example :
    recordsList { exFiles with
      listdir := fun p => if p = "/c/wav48/p1".toList then some ["p1_a.WAV".toList] else none
      isfile := fun _ => true } "/c/wav48/p1".toList "wav".toList = ["a".toList] ∧
    (recordFor { exFiles with exist := fun p => p = "/c/wav48/p1/p1_a.WAV".toList } "/c".toList 0 0 "1".toList
      "a".toList).audio = none := by
  decide +kernel

/-- A spelled line. -/
example : WellSpelled exWs [("2".toList, "  ".toList), ("23".toList, " ".toList), ("F".toList, " ".toList),
    ("English".toList, "\n".toList)] := by
  simp [WellSpelled, exWs]

example : parseSpeakerInfo exWs "ID AGE\n".toList = .error .valueError := by decide +kernel

/-- An XML document which describes an utterance. -/
def exDoc : List Node :=
  [.elem "doc".toList [] [.text "\n".toList, .elem "utterance".toList [] [
    .elem "style".toList [("value".toList, "IDS".toList)] [],
    .elem "audio-file".toList [("value".toList, "rec1".toList)] [],
    .elem "vistag".toList [] [.text " apple red".toList],
    .elem "trans".toList [] [.text "a".toList, .elem "b".toList [] [], .text " an apple ".toList]]]]

/-- Hypotheses of `C117_import`. -/
example : Describes exWs (fun _ => .ok exDoc) "vistag".toList "/x.xml".toList
    ⟨"IDS".toList, "rec1.wav".toList, ["apple".toList, "red".toList], "an apple".toList⟩ := by
  refine ⟨exDoc, "utterance".toList, [], [.elem "style".toList [("value".toList, "IDS".toList)] [],
    .elem "audio-file".toList [("value".toList, "rec1".toList)] [],
    .elem "vistag".toList [] [.text " apple red".toList],
    .elem "trans".toList [] [.text "a".toList, .elem "b".toList [] [], .text " an apple ".toList]],
    "style".toList, [("value".toList, "IDS".toList)], [], "audio-file".toList, [("value".toList, "rec1".toList)], [],
    "vistag".toList, [], " apple red".toList, [], "trans".toList, [],
    [.text "a".toList, .elem "b".toList [] [], .text " an apple ".toList], " an apple ".toList, rfl, ?_, ?_, ?_, ?_,
    ?_, ?_, by decide, by decide, by decide, by decide⟩
  · simp [exDoc, byTag]
  · simp [byTag]
  · simp [byTag]
  · simp [byTag]
  · simp [byTag]
  · rfl

example : XmlFiles { exFiles with
      listdir := fun _ => some ["u1.XML".toList, "notes.txt".toList]
      isfile := fun _ => true } "/c/XML/Speaker-01".toList ["/c/XML/Speaker-01/u1.XML".toList] :=
  ⟨["u1.XML".toList, "notes.txt".toList], rfl, by decide +kernel⟩

set_option synthInstance.maxSize 1024 in
/-- A choreography data set which can be loaded in Python 2, and not in Python 3. -/
example :
    choreo1Load (A := ℕ) false [] (fun _ => .ok ⟨some "d".toList, some [("0".toList, [3, 4]), ("7".toList, [1])],
      some "n".toList, some ["head".toList]⟩) (fun _ => .ok [("7".toList, 17), ("0".toList, 10)]) "primitive".toList
      (some "/c".toList) = .ok ([10, 17], [[3, 4], [1]], ["head".toList]) ∧
    choreo1Load (A := ℕ) true [] (fun _ => .ok ⟨some "d".toList, some [("0".toList, [3, 4]), ("7".toList, [1])],
      some "n".toList, some ["head".toList]⟩) (fun _ => .ok [("7".toList, 17), ("0".toList, 10)]) "primitive".toList
      (some "/c".toList) = .error .typeError ∧
    choreo1Load (A := ℕ) false [] (fun _ => .error .ioError) (fun _ => .error .ioError) "primitives".toList
      (some "/c".toList) = .error .valueError ∧
    choreo1Load (A := ℕ) false [] (fun _ => .error .ioError) (fun _ => .error .ioError) "primitive".toList
      none = .error .lookupError := by
  decide +kernel

end Verif.Corpus
