import Verif.Model.Parser

/-!
# Whether an element has been closed makes no difference to how it is rendered
-/

namespace Verif

/-- A node that is taken as closed. -/
def Node.shut (n : Node) : Node := { n with closed := true }

/-- The tree with all elements closed. -/
def Dom.shut (d : Dom) : Dom := { d with nodes := d.nodes.map Node.shut }

theorem shut_get (d : Dom) (i : Nat) : d.shut.nodes[i]? = (d.nodes[i]?).map Node.shut := by simp [Dom.shut]

theorem shut_length (d : Dom) : d.shut.nodes.length = d.nodes.length := by simp [Dom.shut]

theorem shut_shut (d : Dom) : d.shut.shut = d.shut := by
  simp [Dom.shut, Node.shut, Function.comp_def]

theorem shut_childrenOf (d : Dom) (p : Par) : d.shut.childrenOf p = d.childrenOf p := by
  cases p with
  | none => rfl
  | doc => rfl
  | node i => simp only [Dom.childrenOf, shut_get]; cases d.nodes[i]? <;> rfl

theorem shut_isTag (d : Dom) : d.shut.isTag = d.isTag := by
  funext i
  simp only [Dom.isTag, shut_get]; cases d.nodes[i]? <;> rfl

theorem shut_tagChildren (d : Dom) (p : Par) : d.shut.tagChildren p = d.tagChildren p := by
  simp only [Dom.tagChildren, shut_childrenOf, shut_isTag]

theorem shut_parentOf (d : Dom) (p : Par) : d.shut.parentOf p = d.parentOf p := by
  cases p with
  | none => rfl
  | doc => rfl
  | node i => simp only [Dom.parentOf, shut_get]; cases d.nodes[i]? <;> rfl

theorem shut_hasData (d : Dom) (p : Par) : d.shut.hasData p = d.hasData p := by
  cases p with
  | none => rfl
  | doc => rfl
  | node i => simp only [Dom.hasData, shut_get]; cases d.nodes[i]? <;> rfl

theorem shut_elementMatches (d : Dom) (p : Par) (name : Option Str) : elementMatches d.shut p name = elementMatches d p name := by
  cases p with
  | none => rfl
  | doc => rfl
  | node i => simp only [elementMatches, shut_get]; cases d.nodes[i]? <;> rfl

theorem shut_anyAncestor (d : Dom) (m : Par → Py Bool) (f : Nat) (p : Par) : anyAncestor d.shut m f p = anyAncestor d m f p := by
  induction f generalizing p with
  | zero => rfl
  | succ f ih =>
    cases p with
    | none => rfl
    | doc => rfl
    | node i =>
      simp only [anyAncestor, shut_get]
      cases d.nodes[i]? with
      | none => rfl
      | some n =>
        simp only [Option.map_some, Node.shut]
        cases n.parent <;> simp only [ih]

theorem shut_selMatch (d : Dom) (s : Sel) (p : Par) : selMatch d.shut s p = selMatch d s p := by
  induction s generalizing p with
  | element name => simp only [selMatch, shut_elementMatches]
  | cls s name ih =>
    cases p with
    | none => rfl
    | doc => rfl
    | node i =>
      simp only [selMatch, shut_get, ih]
      cases d.nodes[i]? <;> rfl
  | hash s name ih =>
    cases p with
    | none => rfl
    | doc => rfl
    | node i =>
      simp only [selMatch, shut_get, ih]
      cases d.nodes[i]? <;> rfl
  | neg s sub ih1 ih2 => simp only [selMatch, shut_hasData, ih1, ih2]
  | attrib s name op v ih =>
    cases p with
    | none => simp only [selMatch, ih]
    | doc => simp only [selMatch, ih]
    | node i =>
      simp only [selMatch, shut_get, ih]
      cases d.nodes[i]? <;> rfl
  | pseudo s ident ih => simp only [selMatch, shut_parentOf, shut_hasData, shut_tagChildren, ih]
  | func s name args ih => simp only [selMatch, shut_parentOf, shut_hasData, shut_tagChildren, ih]
  | comb s c sub ih1 ih2 =>
    have e : selMatch d.shut s = selMatch d s := funext ih1
    cases c <;> simp only [selMatch, shut_parentOf, shut_tagChildren, shut_anyAncestor, shut_length, ih2, e]

theorem shut_tagMatches (d : Dom) (p : Par) (sels : List Selector) : tagMatches d.shut p sels = tagMatches d p sels := by
  have key : ∀ (b : Bool) (o : Option Spec3), tagMatchesLoop d.shut p sels b o = tagMatchesLoop d p sels b o := by
    induction sels with
    | nil => intro b o; rfl
    | cons s ss ih => intro b o; simp only [tagMatchesLoop, shut_selMatch, ih]
  exact key _ _

theorem shut_getForTag (d : Dom) (rules : List Rule) (p : Par) : getForTag d.shut rules p = getForTag d rules p := by
  have key : collectMatches d.shut p rules = collectMatches d p rules := by
    induction rules with
    | nil => rfl
    | cons r rs ih => simp only [collectMatches, shut_tagMatches, ih]
  simp only [getForTag, key]

theorem shut_assignOne (c : Cfg) (d : Dom) (t : List (Nat × Assigned)) (i : Nat) : assignOne c d.shut t i = assignOne c d t i := by
  simp only [assignOne, getRenderer, getLinkRenderer, shut_getForTag, shut_get]
  cases d.nodes[i]? <;> rfl

theorem shut_assignRenderers (c : Cfg) (d : Dom) (f : Nat) (is : List Nat) (t : List (Nat × Assigned)) :
    assignRenderers c d.shut f is t = assignRenderers c d f is t := by
  induction f generalizing is t with
  | zero => cases is <;> rfl
  | succ f ih =>
    cases is with
    | nil => rfl
    | cons i is => simp only [assignRenderers, shut_assignOne, shut_childrenOf, ih]

theorem shut_tagInfo (d : Dom) (i : Nat) : tagInfo d.shut i = tagInfo d i := by
  have e : ∀ k : Nat, ((d.nodes[k]?).map Node.shut).bind Node.tag = (d.nodes[k]?).bind Node.tag := by
    intro k; cases d.nodes[k]? <;> rfl
  simp only [tagInfo, shut_get, shut_childrenOf, e]
  cases d.nodes[i]? <;> rfl

theorem shut_renderNode (u : Uni) (d : Dom) (t : List (Nat × Assigned)) (f : Nat) (asLink : Bool) (box : Box) (i : Nat) :
    renderNode u d.shut t f asLink box i = renderNode u d t f asLink box i := by
  induction f generalizing asLink box i with
  | zero => rfl
  | succ f ih =>
    have e : ∀ b, renderNode u d.shut t f b = renderNode u d t f b := fun b => funext fun box => funext fun i => ih b box i
    simp only [renderNode, shut_get, e, renderLink, renderTag, shut_tagInfo]
    cases d.nodes[i]? <;> rfl

/-- The output of `close` depends on the tree, the links of the footer, the renderers that have been assigned already and the parts
that have been rendered already. -/
theorem close_alike (u : Uni) (c : Cfg) (s s' : PState) (hd : (popStack s.dom s.stack.reverse).shut = (popStack s'.dom s'.stack.reverse).shut)
    (hf : s.footer = s'.footer) (ha : s.assigned = s'.assigned) (hp : s.parts = s'.parts) :
    (close u c s).map PState.parsed = (close u c s').map PState.parsed := by
  have h1 : (popStack s.dom s.stack.reverse).roots = (popStack s'.dom s'.stack.reverse).roots := congrArg (fun d => d.roots) hd
  have h2 : (popStack s.dom s.stack.reverse).fuel = (popStack s'.dom s'.stack.reverse).fuel := by
    have := congrArg (fun d => d.nodes.length) hd
    simp only [shut_length] at this
    simp only [Dom.fuel, this]
  have h3 : ∀ f is t, assignRenderers c (popStack s.dom s.stack.reverse) f is t = assignRenderers c (popStack s'.dom s'.stack.reverse) f is t := by
    intro f is t
    rw [← shut_assignRenderers, hd, shut_assignRenderers]
  have h4 : ∀ t f b box, renderNode u (popStack s.dom s.stack.reverse) t f b box = renderNode u (popStack s'.dom s'.stack.reverse) t f b box := by
    intro t f b box
    funext i
    rw [← shut_renderNode, hd, shut_renderNode]
  simp only [close, h1, h2, h3, h4, hf, ha, hp, bind, Except.bind, pure, Except.pure]
  split
  · rfl
  · split
    · rfl
    · split <;> rfl

end Verif
