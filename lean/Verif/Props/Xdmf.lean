import Verif.Model.Xdmf
import Mathlib.Tactic.Linarith
import Mathlib.Data.List.Dedup

/-! # Reading XDMF files (C87) -/

namespace Festim.Spec

open Xdmf

/-- What FEniCS writes for one checkpoint: the mesh, the time, and the fields with their labels.  `ns` is what
the parser puts in front of the tags, if the file declares an XML namespace. -/
def checkpoint (ns : String) (repr : ℚ → String) (mesh : List Xml) (t : ℚ) (labels : List String) : Xml :=
  .node (ns ++ "Grid") [] (mesh ++ .node (ns ++ "Time") [("Value", repr t)] [] ::
    labels.map fun l => .node (ns ++ "Attribute") [("ItemType", "FiniteElementFunction"), ("Name", l)] [])

/-- The file: one collection with all the checkpoints, in the order they were written. -/
def xdmfFile (ns : String) (repr : ℚ → String) (mesh : List Xml) (records : List (ℚ × List String))
    (others : List Xml) : Xml :=
  .node (ns ++ "Xdmf") [("Version", "3.0")]
    [.node (ns ++ "Domain") [] (.node (ns ++ "Grid") [("GridType", "Collection"), ("CollectionType", "Temporal")]
      (records.map fun r => checkpoint ns repr mesh r.1 r.2) :: others)]

/-- Elements which describe the mesh are neither times nor attributes. -/
def MeshElement (ns : String) (e : Xml) : Prop := e.tag = ns ++ "Topology" ∨ e.tag = ns ++ "Geometry"

/-- Namespaces which cannot be mistaken for a tag (such as `{http://www.w3.org/2001/XInclude}`, or none). -/
def PlainNs (ns : String) : Prop := 'T' ∉ ns.toList ∧ 'A' ∉ ns.toList

end Festim.Spec

namespace Festim.Xdmf

open Spec

theorem collect_append {α : Type} (tag key : String) (conv : String → Except PyErr α) (a b : List Xml)
    (la lb : List α) (ha : collect tag key conv a = .ok la) (hb : collect tag key conv b = .ok lb) :
    collect tag key conv (a ++ b) = .ok (la ++ lb) := by
  induction a generalizing la with
  | nil =>
    simp only [collect, Except.ok.injEq] at ha
    subst ha
    exact hb
  | cons e es ih =>
    rw [List.cons_append]
    unfold collect at ha ⊢
    by_cases hc : contains tag e.tag
    · rw [if_pos hc] at ha ⊢
      cases hg : e.get key with
      | error x => rw [hg] at ha; cases ha
      | ok s =>
        rw [hg] at ha
        cases hs : conv s with
        | error x => simp only [hs] at ha; cases ha
        | ok v =>
          simp only [hs] at ha
          cases hr : collect tag key conv es with
          | error x => rw [hr] at ha; cases ha
          | ok l =>
            rw [hr] at ha
            simp only [Except.ok.injEq] at ha
            subst ha
            simp only [hs, ih l hr]
            rfl
    · rw [if_neg hc] at ha ⊢
      exact ih la ha

theorem collect_none {α : Type} (tag key : String) (conv : String → Except PyErr α) (es : List Xml)
    (h : ∀ e ∈ es, contains tag e.tag = false) : collect tag key conv es = .ok [] := by
  induction es with
  | nil => rfl
  | cons e es ih =>
    unfold collect
    rw [if_neg (by rw [h e (by simp)]; decide)]
    exact ih fun x hx => h x (by simp [hx])

/-- A namespace without the first letter of the tag does not change whether a tag is found. -/
theorem contains_append (c : Char) (l : List Char) (a b : List Char) (h : c ∉ a) :
    ((a ++ b).tails.any fun r => (c :: l).isPrefixOf r) = b.tails.any fun r => (c :: l).isPrefixOf r := by
  induction a with
  | nil => rfl
  | cons x a ih =>
    simp only [List.mem_cons, not_or] at h
    have hx : (c :: l).isPrefixOf (x :: (a ++ b)) = false := by
      simp only [List.isPrefixOf, Bool.and_eq_false_iff]
      exact Or.inl (by simpa using h.1)
    rw [List.cons_append, List.tails, List.any_cons, hx, Bool.false_or, ih h.2]

theorem contains_time {ns : String} (hns : PlainNs ns) (s : String) :
    contains "Time" (ns ++ s) = contains "Time" s := by
  unfold contains
  rw [String.toList_append]
  exact contains_append 'T' ['i', 'm', 'e'] _ _ hns.1

theorem contains_attribute {ns : String} (hns : PlainNs ns) (s : String) :
    contains "Attribute" (ns ++ s) = contains "Attribute" s := by
  unfold contains
  rw [String.toList_append]
  exact contains_append 'A' ['t', 't', 'r', 'i', 'b', 'u', 't', 'e'] _ _ hns.2

theorem mesh_tags {ns : String} (hns : PlainNs ns) (mesh : List Xml) (h : ∀ e ∈ mesh, MeshElement ns e) (tag : String)
    (ht : tag = "Time" ∨ tag = "Attribute") : ∀ e ∈ mesh, contains tag e.tag = false := by
  intro e he
  rcases h e he with h | h <;> rcases ht with rfl | rfl <;> rw [h]
  · rw [contains_time hns]; decide +kernel
  · rw [contains_attribute hns]; decide +kernel
  · rw [contains_time hns]; decide +kernel
  · rw [contains_attribute hns]; decide +kernel

/-- Times of one checkpoint. -/
theorem collect_time {ns : String} (hns : PlainNs ns) (repr : ℚ → String) (float : String → Except PyErr ℚ)
    (hr : ∀ q, float (repr q) = .ok q) (mesh : List Xml) (hm : ∀ e ∈ mesh, MeshElement ns e) (t : ℚ)
    (labels : List String) :
    collect "Time" "Value" float (checkpoint ns repr mesh t labels).children = .ok [t] := by
  have h1 := collect_none "Time" "Value" float mesh (mesh_tags hns mesh hm _ (Or.inl rfl))
  have h3 := collect_none "Time" "Value" float
    (labels.map fun l => Xml.node (ns ++ "Attribute") [("ItemType", "FiniteElementFunction"), ("Name", l)] [])
    (by
      intro e he
      obtain ⟨l, _, rfl⟩ := List.mem_map.1 he
      show contains "Time" (ns ++ "Attribute") = false
      rw [contains_time hns]
      decide +kernel)
  have h2 : collect "Time" "Value" float (.node (ns ++ "Time") [("Value", repr t)] [] ::
      labels.map fun l => Xml.node (ns ++ "Attribute") [("ItemType", "FiniteElementFunction"), ("Name", l)] [])
      = .ok [t] := by
    unfold collect
    have hc : contains "Time" (Xml.node (ns ++ "Time") [("Value", repr t)] []).tag = true := by
      show contains "Time" (ns ++ "Time") = true
      rw [contains_time hns]
      decide +kernel
    have hg : (Xml.node (ns ++ "Time") [("Value", repr t)] []).get "Value" = .ok (repr t) := by
      show (match List.lookup "Value" [("Value", repr t)] with
        | some v => Except.ok v
        | none => Except.error (PyErr.keyError "Value")) = _
      rw [List.lookup_cons_self]
    rw [if_pos hc, hg]
    simp only [hr t, h3]
  exact collect_append "Time" "Value" float _ _ [] [t] h1 h2

/-- Labels of one checkpoint. -/
theorem collect_labels {ns : String} (hns : PlainNs ns) (repr : ℚ → String) (mesh : List Xml) (hm : ∀ e ∈ mesh, MeshElement ns e) (t : ℚ)
    (labels : List String) :
    collect "Attribute" "Name" .ok (checkpoint ns repr mesh t labels).children = .ok labels := by
  have h1 := collect_none "Attribute" "Name" (α := String) .ok mesh
    (mesh_tags hns mesh hm _ (Or.inr rfl))
  have h2 : collect "Attribute" "Name" .ok [Xml.node (ns ++ "Time") [("Value", repr t)] []]
      = .ok ([] : List String) :=
    collect_none _ _ _ _ (by
      intro e he
      rw [List.mem_singleton.1 he]
      show contains "Attribute" (ns ++ "Time") = false
      rw [contains_attribute hns]
      decide +kernel)
  have h3 : ∀ ls : List String, collect "Attribute" "Name" .ok
      (ls.map fun l => Xml.node (ns ++ "Attribute") [("ItemType", "FiniteElementFunction"), ("Name", l)] [])
      = .ok ls := by
    intro ls
    induction ls with
    | nil => rfl
    | cons l ls ih =>
      rw [List.map_cons]
      unfold collect
      have hc : contains "Attribute"
          (Xml.node (ns ++ "Attribute") [("ItemType", "FiniteElementFunction"), ("Name", l)] []).tag = true := by
        show contains "Attribute" (ns ++ "Attribute") = true
        rw [contains_attribute hns]
        decide +kernel
      have hg : (Xml.node (ns ++ "Attribute") [("ItemType", "FiniteElementFunction"), ("Name", l)] []).get
          "Name" = .ok l := by
        show (match List.lookup "Name" [("ItemType", "FiniteElementFunction"), ("Name", l)] with
          | some v => Except.ok v
          | none => Except.error (PyErr.keyError "Name")) = _
        have hne : ("Name" == "ItemType") = false := by decide +kernel
        rw [List.lookup_cons, hne]
        simp only [List.lookup_cons_self]
      rw [if_pos hc, hg, ih]
  have h4 := collect_append "Attribute" "Name" .ok _ _ _ _ h2 (h3 labels)
  exact collect_append "Attribute" "Name" .ok _ _ _ _ h1 h4

theorem elements_file (ns : String) (repr : ℚ → String) (mesh : List Xml) (records : List (ℚ × List String))
    (others : List Xml) :
    ∃ grid, firstGrid (xdmfFile ns repr mesh records others) = .ok grid ∧
      elements grid = records.flatMap fun r => (checkpoint ns repr mesh r.1 r.2).children := by
  refine ⟨_, rfl, ?_⟩
  unfold elements
  simp only [Xml.children, List.flatMap_map]

theorem collect_flatMap {α β : Type} (tag key : String) (conv : String → Except PyErr α)
    (l : List β) (f : β → List Xml) (g : β → List α)
    (h : ∀ b ∈ l, collect tag key conv (f b) = .ok (g b)) :
    collect tag key conv (l.flatMap f) = .ok (l.flatMap g) := by
  induction l with
  | nil => rfl
  | cons b l ih =>
    rw [List.flatMap_cons, List.flatMap_cons]
    exact collect_append _ _ _ _ _ _ _ (h b (by simp)) (ih fun x hx => h x (by simp [hx]))

end Festim.Xdmf

namespace Festim.Props

open Xdmf Spec

/-- **C87 (a).** The times read from a file are those of its checkpoints, in the order they were written (with repetitions),
whatever the mesh, the number of fields, and what else the domain contains. -/
theorem C87_times {ns : String} (hns : PlainNs ns) (repr : ℚ → String) (float : String → Except PyErr ℚ)
    (hr : ∀ q, float (repr q) = .ok q) (mesh : List Xml) (hm : ∀ e ∈ mesh, MeshElement ns e)
    (records : List (ℚ × List String)) (others : List Xml) :
    extractTimes float (xdmfFile ns repr mesh records others) = .ok (records.map (·.1)) := by
  obtain ⟨grid, hg, he⟩ := elements_file ns repr mesh records others
  unfold extractTimes
  rw [hg]
  simp only
  rw [he, collect_flatMap "Time" "Value" float records _ (fun r => [r.1])
    (fun r _ => collect_time hns repr float hr mesh hm r.1 r.2)]
  clear hg he
  congr 1
  induction records with
  | nil => rfl
  | cons r l ih => simp [List.flatMap_cons, ih]

/-- **C87 (b).** The labels read are those of the fields in any checkpoint, each once. -/
theorem C87_labels {ns : String} (hns : PlainNs ns) (repr : ℚ → String) (mesh : List Xml) (hm : ∀ e ∈ mesh, MeshElement ns e)
    (records : List (ℚ × List String)) (others : List Xml) :
    ∃ ls, extractLabels (xdmfFile ns repr mesh records others) = .ok ls ∧ ls.Nodup ∧
      ∀ l, l ∈ ls ↔ ∃ r ∈ records, l ∈ r.2 := by
  obtain ⟨grid, hg, he⟩ := elements_file ns repr mesh records others
  unfold extractLabels
  rw [hg]
  simp only
  rw [he, collect_flatMap "Attribute" "Name" .ok records _ (fun r => r.2)
    (fun r _ => collect_labels hns repr mesh hm r.1 r.2)]
  refine ⟨_, rfl, List.nodup_dedup _, ?_⟩
  intro l
  rw [List.mem_dedup, List.mem_flatMap]

/-- **C87 (c).** A temperature can be read from a file exactly when some checkpoint of the file holds a field with the
given label. -/
theorem C87_temperature {ns : String} (hns : PlainNs ns) (repr : ℚ → String) (mesh : List Xml) (hm : ∀ e ∈ mesh, MeshElement ns e)
    (records : List (ℚ × List String)) (others : List Xml) (label : String) :
    (temperatureCheck (xdmfFile ns repr mesh records others) label = .ok () ↔
      ∃ r ∈ records, label ∈ r.2) ∧
    ((∀ r ∈ records, label ∉ r.2) →
      temperatureCheck (xdmfFile ns repr mesh records others) label
        = .error (.valueError ("Coudln't find label: " ++ label))) := by
  obtain ⟨ls, h1, _, h3⟩ := C87_labels hns repr mesh hm records others
  unfold temperatureCheck
  rw [h1]
  simp only
  constructor
  · rw [← h3]
    by_cases h : label ∈ ls
    · simp [h]
    · simp [h]
  · intro h
    rw [if_neg]
    rw [h3]
    push Not
    exact h

/-- **C87 (d).** The checks of an initial condition: a file needs a label and a time step, anything else needs nothing; what
is missing is named, the label first. -/
theorem C87_initial (isXdmf : Bool) (label : Option String) (timeStep : Option ℤ) :
    (initialCheck isXdmf label timeStep = .ok () ↔
      (isXdmf = true → label.isSome ∧ timeStep.isSome)) ∧
    (initialCheck isXdmf label timeStep = .error (.valueError "label cannot be None") ↔ isXdmf = true ∧ label = none) ∧
    (initialCheck isXdmf label timeStep = .error (.valueError "time_step cannot be None") ↔
      isXdmf = true ∧ label.isSome ∧ timeStep = none) := by
  unfold initialCheck
  cases isXdmf <;> cases label <;> cases timeStep <;> simp

/-! ## Examples -/

/-- C87 (a): the second grid of the domain is not looked at. -/
example : extractTimes (fun s => if s = "1" then .ok 1 else .ok 2)
    (xdmfFile "" (fun q => if q = 1 then "1" else "2") [.node "Topology" [] [], .node "Geometry" [] []]
      [(1, ["T", "u"]), (2, ["T"])]
      [.node "Grid" [] [.node "Grid" [] [.node "Time" [("Value", "1")] []]]]) = .ok [1, 2] := by
  decide +kernel

example : PlainNs "{http://www.w3.org/2001/XInclude}" := by
  constructor <;> decide +kernel

example : extractLabels (xdmfFile "{XInclude}" (fun _ => "0") [.node "{XInclude}Topology" [] []]
    [(1, ["T", "u"]), (2, ["T"])] []) = .ok ["u", "T"] := by decide +kernel

end Festim.Props
