import Verif.Model.Parser
import Verif.Model.CssParse

/-!
# The project's tests of selectors

The trees and assertions of `/repo/tests/test_selectors.py`, evaluated in the model. The text of the selectors is
read by the model of `cssselect`. (In the tests of siblings the variable `section1` is a text node; its children have it as parent.)
-/

namespace Verif.RepoTests

/-- `MockTagParser` -/
def mockTag (tag : Str) (parent : Par) (attrs : List (Str × Str)) (children : List Nat) : Node :=
  match newTag tag parent (attrs.map (fun a => (a.1, some a.2))) with
  | .ok n => { n with children }
  | .error _ => { tag := none, data := none, parent, children, closed := false, attrs := [], classes := [], id := none,
                  pending := [], link := none }

/-- `MockDataParser` -/
def mockData (parent : Par) (data : Str) (children : List Nat) : Node := { newData parent data with children }

/-- `_perform_checks`: selectors, the elements they are tried on, and the expected results. -/
def perform (d : Dom) (checks : List (Str × List Nat × List Bool)) : Bool :=
  checks.all (fun c => match (do
      let sels ← cssParse c.1
      c.2.1.mapM (fun i => (tagMatches d (.node i) sels).map Prod.fst)) with
    | .ok r => r == c.2.2
    | .error _ => false)

/-- The document of `test_basic_element_match`. -/
def basicElementMatchDoc : Dom where
  nodes := [
    mockTag py"p" .doc [] [],
    mockTag py"p" .doc [] []]
  roots := [0, 1]

example : perform basicElementMatchDoc [
    (py"p", [1], [true]),
    (py"div", [1], [false])] = true := by decide +kernel

/-- The document of `test_id_match`. -/
def idMatchDoc : Dom where
  nodes := [
    mockTag py"p" .doc [] [],
    mockData .doc py"\n" [],
    mockTag py"p" .doc [(py"id", py"para1")] [],
    mockTag py"p" .doc [(py"id", py"para2")] [],
    mockTag py"div" .doc [(py"id", py"div1")] [],
    mockTag py"div" .doc [] []]
  roots := [0, 1, 2, 3, 4, 5]

example : perform idMatchDoc [
    (py"#nothing", [0, 1, 2, 3, 4, 5], [false, false, false, false, false, false]),
    (py"#para1", [0, 1, 2, 3, 4, 5], [false, false, true, false, false, false]),
    (py"p#para1", [0, 1, 2, 3, 4, 5], [false, false, true, false, false, false]),
    (py"div#para1", [0, 1, 2, 3, 4, 5], [false, false, false, false, false, false]),
    (py"#div1", [0, 1, 2, 3, 4, 5], [false, false, false, false, true, false]),
    (py"div#div1", [0, 1, 2, 3, 4, 5], [false, false, false, false, true, false]),
    (py"div", [0, 1, 2, 3, 4, 5], [false, false, false, false, true, true])] = true := by decide +kernel

/-- The document of `test_class_match`. -/
def classMatchDoc : Dom where
  nodes := [
    mockTag py"p" .doc [] [],
    mockData .doc py"\n" [],
    mockTag py"p" .doc [(py"id", py"para1"), (py"class", py"c1")] [],
    mockTag py"p" .doc [(py"id", py"para2"), (py"class", py"c1 c2")] [],
    mockTag py"div" .doc [(py"id", py"div1")] [],
    mockTag py"div" .doc [(py"class", py"c2")] []]
  roots := [0, 1, 2, 3, 4, 5]

example : perform classMatchDoc [
    (py".nothing", [0, 1, 2, 3, 4, 5], [false, false, false, false, false, false]),
    (py".c1", [0, 1, 2, 3, 4, 5], [false, false, true, true, false, false]),
    (py".c2#para2", [0, 1, 2, 3, 4, 5], [false, false, false, true, false, false]),
    (py"div.c2", [0, 1, 2, 3, 4, 5], [false, false, false, false, false, true]),
    (py"#div1.c1", [0, 1, 2, 3, 4, 5], [false, false, false, false, false, false]),
    (py".div1", [0, 1, 2, 3, 4, 5], [false, false, false, false, false, false]),
    (py"div", [0, 1, 2, 3, 4, 5], [false, false, false, false, true, true])] = true := by decide +kernel

/-- The document of `test_negation_match`. -/
def negationMatchDoc : Dom where
  nodes := [
    mockTag py"p" .doc [] [],
    mockData .doc py"\n" [],
    mockTag py"p" .doc [(py"id", py"para1"), (py"class", py"c1")] [],
    mockTag py"p" .doc [(py"id", py"para2"), (py"class", py"c1 c2")] [],
    mockTag py"div" .doc [(py"id", py"div1")] [],
    mockTag py"div" .doc [(py"class", py"c2")] []]
  roots := [0, 1, 2, 3, 4, 5]

example : perform negationMatchDoc [
    (py":not(span)", [0, 1, 2, 3, 4, 5], [true, false, true, true, true, true]),
    (py"p:not(.c2)", [0, 1, 2, 3, 4, 5], [true, false, true, false, false, false]),
    (py"p:not(#para1)", [0, 1, 2, 3, 4, 5], [true, false, false, true, false, false]),
    (py".c1:not(.c2)", [0, 1, 2, 3, 4, 5], [false, false, true, false, false, false]),
    (py":not(p)", [0, 1, 2, 3, 4, 5], [false, false, false, false, true, true])] = true := by decide +kernel

/-- The document of `test_multiple_selectors_match`. -/
def multipleSelectorsMatchDoc : Dom where
  nodes := [
    mockTag py"p" .doc [] [],
    mockData .doc py"\n" [],
    mockTag py"p" .doc [(py"id", py"para1"), (py"class", py"c1")] [],
    mockTag py"p" .doc [(py"id", py"para2"), (py"class", py"c1 c2")] [],
    mockTag py"div" .doc [(py"id", py"div1")] [],
    mockTag py"div" .doc [(py"class", py"c2")] []]
  roots := [0, 1, 2, 3, 4, 5]

example : perform multipleSelectorsMatchDoc [
    (py"p, p#para1, #para2, .c1, div", [0, 1, 2, 3, 4, 5], [true, false, true, true, true, true]),
    (py"p.c2, div#div1", [0, 1, 2, 3, 4, 5], [false, false, false, true, true, false]),
    (py"div, div#div1", [0, 1, 2, 3, 4, 5], [false, false, false, false, true, true])] = true := by decide +kernel

/-- The document of `test_child`. -/
def childDoc : Dom where
  nodes := [
    mockTag py"h1" .doc [(py"id", py"bigheader")] [],
    mockData .doc py"\n" [],
    mockTag py"section" .doc [(py"id", py"section1"), (py"class", py"docsec")] [4, 5, 6, 7],
    mockTag py"section" .doc [(py"id", py"section2"), (py"class", py"docsec")] [8, 9, 10, 11],
    mockTag py"h2" (.node 2) [(py"class", py"sectionheader")] [],
    mockData .doc py"\n" [],
    mockTag py"p" (.node 2) [] [],
    mockTag py"p" (.node 2) [] [],
    mockTag py"h2" (.node 3) [(py"class", py"sectionheader")] [],
    mockData .doc py"\n" [],
    mockTag py"p" (.node 3) [(py"id", py"special")] [],
    mockTag py"div" (.node 3) [] []]
  roots := [0, 1, 2, 3]

example : perform childDoc [
    (py"section > h1", [0, 1, 2, 3], [false, false, false, false]),
    (py"section > p", [0, 1, 2, 3], [false, false, false, false]),
    (py"div > p", [0, 1, 2, 3], [false, false, false, false]),
    (py"section > .sectionheader", [0, 1, 2, 3], [false, false, false, false]),
    (py"section > div", [0, 1, 2, 3], [false, false, false, false]),
    (py"h1 > section", [0, 1, 2, 3], [false, false, false, false]),
    (py"#nothing > h1", [0, 1, 2, 3], [false, false, false, false]),
    (py".sectionheader > h1", [0, 1, 2, 3], [false, false, false, false]),
    (py"section > h2", [4, 5, 6, 7], [true, false, false, false]),
    (py"section > p", [4, 5, 6, 7], [false, false, true, true]),
    (py"div > p", [4, 5, 6, 7], [false, false, false, false]),
    (py"section > .sectionheader", [4, 5, 6, 7], [true, false, false, false]),
    (py"section > div", [4, 5, 6, 7], [false, false, false, false]),
    (py"section > h2", [8, 9, 10, 11], [true, false, false, false]),
    (py"section > p", [8, 9, 10, 11], [false, false, true, false]),
    (py"div > p", [8, 9, 10, 11], [false, false, false, false]),
    (py"section > .sectionheader", [8, 9, 10, 11], [true, false, false, false]),
    (py"section > div", [8, 9, 10, 11], [false, false, false, true]),
    (py"section > #special", [8, 9, 10, 11], [false, false, true, false]),
    (py"section > p#special", [8, 9, 10, 11], [false, false, true, false])] = true := by decide +kernel

/-- The document of `test_general_sibling`. -/
def generalSiblingDoc : Dom where
  nodes := [
    mockTag py"h1" .doc [(py"id", py"bigheader")] [],
    mockData .doc py"\n" [4, 5, 6, 7],
    mockTag py"section" .doc [(py"id", py"section1"), (py"class", py"docsec")] [8, 9, 10, 11],
    mockTag py"section" .doc [(py"id", py"section2"), (py"class", py"docsec")] [],
    mockTag py"h2" (.node 1) [(py"class", py"sectionheader")] [],
    mockData .doc py"\n" [],
    mockTag py"p" (.node 1) [] [],
    mockTag py"p" (.node 1) [(py"class", py"last")] [],
    mockTag py"h2" (.node 2) [(py"class", py"sectionheader")] [],
    mockData .doc py"\n" [],
    mockTag py"p" (.node 2) [(py"id", py"special")] [],
    mockTag py"div" (.node 2) [] []]
  roots := [0, 1, 2, 3]

example : perform generalSiblingDoc [
    (py"section ~ h1", [0, 1, 2, 3], [false, false, false, false]),
    (py"h1 ~ section", [0, 1, 2, 3], [false, false, true, true]),
    (py"div ~ p", [0, 1, 2, 3], [false, false, false, false]),
    (py"#bigheader ~ #section1", [0, 1, 2, 3], [false, false, true, false]),
    (py"#bigheader ~ #section2", [0, 1, 2, 3], [false, false, false, true]),
    (py"#bigheader ~ .docsec", [0, 1, 2, 3], [false, false, true, true]),
    (py"h1 ~ .docsec", [0, 1, 2, 3], [false, false, true, true]),
    (py".sectionheader ~ .docsec", [0, 1, 2, 3], [false, false, false, false]),
    (py"h2 ~ p", [4, 5, 6, 7], [false, false, true, true]),
    (py"section ~ p", [4, 5, 6, 7], [false, false, false, false]),
    (py"p ~ p", [4, 5, 6, 7], [false, false, false, true]),
    (py".sectionheader ~ p", [4, 5, 6, 7], [false, false, true, true]),
    (py"h2 ~ .last", [4, 5, 6, 7], [false, false, false, true]),
    (py".sectionheader ~ .last", [4, 5, 6, 7], [false, false, false, true]),
    (py".sectionheader ~ p.last", [4, 5, 6, 7], [false, false, false, true]),
    (py"section ~ h2", [8, 9, 10, 11], [false, false, false, false]),
    (py"div ~ p", [8, 9, 10, 11], [false, false, false, false]),
    (py"p ~ div", [8, 9, 10, 11], [false, false, false, true]),
    (py"h2 ~ div", [8, 9, 10, 11], [false, false, false, true]),
    (py"h2.sectionheader ~ #special", [8, 9, 10, 11], [false, false, true, false])] = true := by decide +kernel

/-- The document of `test_adjacent_sibling`. -/
def adjacentSiblingDoc : Dom where
  nodes := [
    mockTag py"h1" .doc [(py"id", py"bigheader")] [],
    mockData .doc py"\n" [4, 5, 6, 7],
    mockTag py"section" .doc [(py"id", py"section1"), (py"class", py"docsec")] [8, 9, 10, 11],
    mockTag py"section" .doc [(py"id", py"section2"), (py"class", py"docsec")] [],
    mockTag py"h2" (.node 1) [(py"class", py"sectionheader")] [],
    mockData .doc py"\n" [],
    mockTag py"p" (.node 1) [] [],
    mockTag py"p" (.node 1) [(py"class", py"last")] [],
    mockTag py"h2" (.node 2) [(py"class", py"sectionheader")] [],
    mockData .doc py"\n" [],
    mockTag py"p" (.node 2) [(py"id", py"special")] [],
    mockTag py"div" (.node 2) [] []]
  roots := [0, 1, 2, 3]

example : perform adjacentSiblingDoc [
    (py"section + h1", [0, 1, 2, 3], [false, false, false, false]),
    (py"h1 + section", [0, 1, 2, 3], [false, false, true, false]),
    (py"#section1 + #section2", [0, 1, 2, 3], [false, false, false, true]),
    (py"#bigheader + section", [0, 1, 2, 3], [false, false, true, false]),
    (py"#section1 + section", [0, 1, 2, 3], [false, false, false, true]),
    (py"h1 + .docsec", [0, 1, 2, 3], [false, false, true, false]),
    (py"h2 + p", [4, 5, 6, 7], [false, false, true, false]),
    (py"p + p", [4, 5, 6, 7], [false, false, false, true]),
    (py".sectionheader + #special", [4, 5, 6, 7], [false, false, false, false]),
    (py"h2 + .last", [4, 5, 6, 7], [false, false, false, false]),
    (py"h2 + div", [8, 9, 10, 11], [false, false, false, false]),
    (py"p + div", [8, 9, 10, 11], [false, false, false, true]),
    (py"div + p", [8, 9, 10, 11], [false, false, false, false]),
    (py"h2 + div", [8, 9, 10, 11], [false, false, false, false]),
    (py".sectionheader + #special", [8, 9, 10, 11], [false, false, true, false])] = true := by decide +kernel

/-- The document of `test_descendant`. -/
def descendantDoc : Dom where
  nodes := [
    mockTag py"h1" .doc [(py"id", py"bigheader")] [],
    mockData .doc py"\n" [],
    mockTag py"section" .doc [(py"id", py"section1"), (py"class", py"docsec")] [3, 4, 5, 6, 7],
    mockTag py"h2" (.node 2) [(py"class", py"sectionheader")] [],
    mockData .doc py"\n" [],
    mockTag py"p" (.node 2) [] [],
    mockData .doc py"\n" [],
    mockTag py"div" (.node 2) [(py"class", py"last")] [8, 9, 10, 11, 12],
    mockTag py"h2" (.node 7) [(py"class", py"sectionheader")] [],
    mockData .doc py"\n" [],
    mockTag py"p" (.node 7) [(py"id", py"special")] [],
    mockData .doc py"\n" [],
    mockTag py"div" (.node 7) [] []]
  roots := [0, 1, 2]

example : perform descendantDoc [
    (py"section h1", [0, 1, 2], [false, false, false]),
    (py"h1 section", [0, 1, 2], [false, false, false]),
    (py"section p", [3, 4, 5, 6, 7], [false, false, true, false, false]),
    (py".docsec p", [3, 4, 5, 6, 7], [false, false, true, false, false]),
    (py"#section1 p", [3, 4, 5, 6, 7], [false, false, true, false, false]),
    (py"h1 p", [3, 4, 5, 6, 7], [false, false, false, false, false]),
    (py".docsec .last", [3, 4, 5, 6, 7], [false, false, false, false, true]),
    (py"section p", [8, 9, 10, 11, 12], [false, false, true, false, false]),
    (py".docsec p", [8, 9, 10, 11, 12], [false, false, true, false, false]),
    (py"#section1 p", [8, 9, 10, 11, 12], [false, false, true, false, false]),
    (py"#section1 h2", [8, 9, 10, 11, 12], [true, false, false, false, false]),
    (py"#section1 p#special", [8, 9, 10, 11, 12], [false, false, true, false, false]),
    (py"h1 p", [8, 9, 10, 11, 12], [false, false, false, false, false]),
    (py".docsec .last", [8, 9, 10, 11, 12], [false, false, false, false, false])] = true := by decide +kernel

/-- The document of `test_first_child`. -/
def firstChildDoc : Dom where
  nodes := [
    mockData .doc py"\n" [],
    mockTag py"h1" .doc [(py"id", py"bigheader")] [],
    mockData .doc py"\n" [],
    mockTag py"section" .doc [(py"id", py"section1"), (py"class", py"docsec")] [4, 5, 6, 7],
    mockData .doc py"\n" [],
    mockTag py"h2" (.node 3) [(py"class", py"sectionheader")] [],
    mockTag py"p" (.node 3) [] [],
    mockTag py"div" (.node 3) [(py"class", py"last")] [8, 9, 10, 11],
    mockData .doc py"\n" [],
    mockTag py"h2" (.node 7) [(py"class", py"sectionheader")] [],
    mockTag py"p" (.node 7) [(py"id", py"special")] [],
    mockTag py"div" (.node 7) [] []]
  roots := [0, 1, 2, 3]

example : perform firstChildDoc [
    (py"h1:first-child", [0, 1, 2, 3], [false, true, false, false]),
    (py"section:first-child", [0, 1, 2, 3], [false, false, false, false]),
    (py":first-child", [0, 1, 2, 3], [false, true, false, false]),
    (py"#bigheader:first-child", [0, 1, 2, 3], [false, true, false, false]),
    (py".docsec:first-child", [0, 1, 2, 3], [false, false, false, false]),
    (py":first-child", [4, 5, 6, 7], [false, true, false, false]),
    (py"h2:first-child", [4, 5, 6, 7], [false, true, false, false]),
    (py"p:first-child", [4, 5, 6, 7], [false, false, false, false]),
    (py".last:first-child", [4, 5, 6, 7], [false, false, false, false]),
    (py".last > .sectionheader:first-child", [8, 9, 10, 11], [false, true, false, false]),
    (py".last > #special:first-child", [8, 9, 10, 11], [false, false, false, false]),
    (py"div > h2:first-child", [8, 9, 10, 11], [false, true, false, false])] = true := by decide +kernel

/-- The document of `test_last_child`. -/
def lastChildDoc : Dom where
  nodes := [
    mockTag py"h1" .doc [(py"id", py"bigheader")] [],
    mockTag py"section" .doc [(py"id", py"section1"), (py"class", py"docsec")] [3, 4, 5, 6],
    mockData .doc py"\n" [],
    mockTag py"h2" (.node 1) [(py"class", py"sectionheader")] [],
    mockTag py"p" (.node 1) [] [],
    mockTag py"div" (.node 1) [(py"class", py"last")] [7, 8, 9, 10],
    mockData .doc py"\n" [],
    mockTag py"h2" (.node 5) [(py"class", py"sectionheader")] [],
    mockTag py"p" (.node 5) [(py"id", py"special")] [],
    mockTag py"div" (.node 5) [] [],
    mockData .doc py"\n" []]
  roots := [0, 1, 2]

example : perform lastChildDoc [
    (py"h1:last-child", [0, 1, 2], [false, false, false]),
    (py"section:last-child", [0, 1, 2], [false, true, false]),
    (py":last-child", [0, 1, 2], [false, true, false]),
    (py".docsec:last-child", [0, 1, 2], [false, true, false]),
    (py"#bigheader:last-child", [0, 1, 2], [false, false, false]),
    (py":last-child", [3, 4, 5, 6], [false, false, true, false]),
    (py"h2:last-child", [3, 4, 5, 6], [false, false, false, false]),
    (py"p:last-child", [3, 4, 5, 6], [false, false, false, false]),
    (py"div:last-child", [3, 4, 5, 6], [false, false, true, false]),
    (py".last:last-child", [3, 4, 5, 6], [false, false, true, false]),
    (py".last > .sectionheader:last-child", [7, 8, 9, 10], [false, false, false, false]),
    (py".last > #special:last-child", [7, 8, 9, 10], [false, false, false, false]),
    (py".last > div:last-child", [7, 8, 9, 10], [false, false, true, false])] = true := by decide +kernel

/-- The document of `test_nth_child`. -/
def nthChildDoc : Dom where
  nodes := [
    mockTag py"h1" .doc [(py"id", py"bigheader")] [],
    mockData .doc py"\n" [],
    mockTag py"section" .doc [(py"id", py"section1"), (py"class", py"docsec")] [3, 4, 5, 6],
    mockTag py"h2" (.node 2) [(py"class", py"sectionheader")] [],
    mockData .doc py"\n" [],
    mockTag py"p" (.node 2) [] [],
    mockTag py"div" (.node 2) [(py"class", py"last")] [7, 8, 9, 10],
    mockTag py"h2" (.node 6) [(py"class", py"sectionheader")] [],
    mockData .doc py"\n" [],
    mockTag py"p" (.node 6) [(py"id", py"special")] [],
    mockTag py"div" (.node 6) [] []]
  roots := [0, 1, 2]

example : perform nthChildDoc [
    (py"h1:nth-child(1)", [0, 1, 2], [true, false, false]),
    (py"section:nth-child(1)", [0, 1, 2], [false, false, false]),
    (py"section:nth-child(2)", [0, 1, 2], [false, false, true]),
    (py":nth-child(2)", [0, 1, 2], [false, false, true]),
    (py".docsec:nth-child(2)", [0, 1, 2], [false, false, true]),
    (py"#bigheader:nth-child(2)", [0, 1, 2], [false, false, false]),
    (py":nth-child(3)", [3, 4, 5, 6], [false, false, false, true]),
    (py":nth-child(2)", [3, 4, 5, 6], [false, false, true, false]),
    (py":nth-child(2), :nth-child(3)", [3, 4, 5, 6], [false, false, true, true]),
    (py"h2:nth-child(1)", [3, 4, 5, 6], [true, false, false, false]),
    (py"p:nth-child(1)", [3, 4, 5, 6], [false, false, false, false]),
    (py"div:nth-child(3)", [3, 4, 5, 6], [false, false, false, true]),
    (py".last:nth-child(3)", [3, 4, 5, 6], [false, false, false, true]),
    (py".last > .sectionheader:nth-child(2)", [7, 8, 9, 10], [false, false, false, false]),
    (py".last > #special:nth-child(2)", [7, 8, 9, 10], [false, false, true, false]),
    (py".last > div:nth-child(3)", [7, 8, 9, 10], [false, false, false, true])] = true := by decide +kernel

/-- The document of `test_nth_last_child`. -/
def nthLastChildDoc : Dom where
  nodes := [
    mockTag py"h1" .doc [(py"id", py"bigheader")] [],
    mockData .doc py"\n" [],
    mockTag py"section" .doc [(py"id", py"section1"), (py"class", py"docsec")] [3, 4, 5, 6],
    mockTag py"h2" (.node 2) [(py"class", py"sectionheader")] [],
    mockData .doc py"\n" [],
    mockTag py"p" (.node 2) [] [],
    mockTag py"div" (.node 2) [(py"class", py"last")] [7, 8, 9, 10],
    mockTag py"h2" (.node 6) [(py"class", py"sectionheader")] [],
    mockData .doc py"\n" [],
    mockTag py"p" (.node 6) [(py"id", py"special")] [],
    mockTag py"div" (.node 6) [] []]
  roots := [0, 1, 2]

example : perform nthLastChildDoc [
    (py"h1:nth-last-child(2)", [0, 1, 2], [true, false, false]),
    (py"section:nth-last-child(2)", [0, 1, 2], [false, false, false]),
    (py"section:nth-last-child(1)", [0, 1, 2], [false, false, true]),
    (py":nth-last-child(2)", [0, 1, 2], [true, false, false]),
    (py".docsec:nth-last-child(1)", [0, 1, 2], [false, false, true]),
    (py"#bigheader:nth-last-child(2)", [0, 1, 2], [true, false, false]),
    (py":nth-last-child(3)", [3, 4, 5, 6], [true, false, false, false]),
    (py":nth-last-child(2)", [3, 4, 5, 6], [false, false, true, false]),
    (py":nth-last-child(2), :nth-last-child(3)", [3, 4, 5, 6], [true, false, true, false]),
    (py"h2:nth-last-child(1)", [3, 4, 5, 6], [false, false, false, false]),
    (py"p:nth-last-child(1)", [3, 4, 5, 6], [false, false, false, false]),
    (py"div:nth-last-child(1)", [3, 4, 5, 6], [false, false, false, true]),
    (py".last:nth-last-child(3)", [3, 4, 5, 6], [false, false, false, false]),
    (py".last > .sectionheader:nth-last-child(3)", [7, 8, 9, 10], [true, false, false, false]),
    (py".last > #special:nth-last-child(2)", [7, 8, 9, 10], [false, false, true, false]),
    (py".last > div:nth-last-child(1)", [7, 8, 9, 10], [false, false, false, true])] = true := by decide +kernel

end Verif.RepoTests
