import Verif.Model.Transform
/-
The application of an XPath or XSLT transformation to a unit: marking the results with an element or an attribute in the document tree, and the kind of the
result. The tree is one of nodes with pointers, as in libxml2; the functions of libxml2 that are used are modelled as its documentation and source say
(they are not in /repo).
-/
namespace Srcml

/-- The kinds of the nodes in a document that a query can find, except attributes and namespaces (`xmlElementType`, libxml2; used in
src/libsrcml/xpathTransformation.cpp:324-331, 366-393). -/
inductive DomKind where
  | element | text | comment | other
  deriving DecidableEq, Repr

/-- An attribute: the prefix and the URI of its namespace, if it has one, its name and value (`xmlAttr`, libxml2; used in
src/libsrcml/xpathTransformation.cpp:169-186). -/
structure DomAttr where
  ns : Option (Str × Str) := none
  name : Str
  value : Str
  deriving DecidableEq, Repr

/-- What a node is, without its place: kind, namespace (prefix and URI), name, content, attributes (`xmlNode`, libxml2; used in
src/libsrcml/xpathTransformation.cpp:357-394). -/
structure DomLabel where
  kind : DomKind := .element
  ns : Option (Str × Str) := none
  name : Str := []
  content : Str := []
  attrs : List DomAttr := []
  deriving DecidableEq, Repr

/-- A node with its pointers (`xmlNode`, libxml2; used in src/libsrcml/xpathTransformation.cpp:366-393). -/
structure DomNode where
  label : DomLabel := {}
  parent : Option Nat := none
  children : Option Nat := none
  last : Option Nat := none
  next : Option Nat := none
  prev : Option Nat := none
  deriving DecidableEq, Repr

/-- The nodes in memory, by address; `fresh` is the address of the next new one (src/libsrcml/xpathTransformation.cpp:370). -/
structure Dom where
  node : Nat → DomNode
  fresh : Nat

/-- An assignment to members of a node (src/libsrcml/xpathTransformation.cpp:385-391). -/
def Dom.set (d : Dom) (i : Nat) (f : DomNode → DomNode) : Dom := { d with node := fun j => if j = i then f (d.node j) else d.node j }

/-- An assignment through a pointer that is tested for null first (libxml2 `xmlReplaceNode`, `xmlUnlinkNode`; src/libsrcml/xpathTransformation.cpp:379-380). -/
def Dom.setAt (d : Dom) (i : Option Nat) (f : DomNode → DomNode) : Dom :=
  match i with
  | some i => d.set i f
  | none => d

/-- `xmlNewNode` (libxml2), src/libsrcml/xpathTransformation.cpp:370. -/
def Dom.newNode (d : Dom) (ns : Option (Str × Str)) (name : Str) : Nat × Dom :=
  (d.fresh, { node := fun j => if j = d.fresh then { label := { ns := ns, name := name } } else d.node j, fresh := d.fresh + 1 })

/-- `xmlReplaceNode` (libxml2) for a `cur` that is not linked, src/libsrcml/xpathTransformation.cpp:379: a node without a parent is not replaced; `cur` takes the place of `old` for
the neighbours and the parent, and `old` is unlinked. -/
def Dom.replaceNode (d : Dom) (old cur : Nat) : Dom :=
  match (d.node old).parent with
  | none => d
  | some p =>
    let n := (d.node old).next
    let v := (d.node old).prev
    let d := d.set cur (fun x => { x with parent := some p, next := n, prev := v })
    let d := d.setAt n (fun x => { x with prev := some cur })
    let d := d.setAt v (fun x => { x with next := some cur })
    let d := d.set p (fun x => { x with children := if x.children = some old then some cur else x.children })
    let d := d.set p (fun x => { x with last := if x.last = some old then some cur else x.last })
    d.set old (fun x => { x with next := none, prev := none, parent := none })

/-- `xmlAddChild` (libxml2), src/libsrcml/xpathTransformation.cpp:380. Without the merging of texts: the parent has no children here. -/
def Dom.addChild (d : Dom) (parent cur : Nat) : Dom :=
  let before := (d.node cur).parent
  let d := d.set cur (fun x => { x with parent := some parent })
  if before = some parent then d
  else match (d.node parent).children with
    | none => d.set parent (fun x => { x with children := some cur, last := some cur })
    | some _ =>
      let l := (d.node parent).last
      let d := d.setAt l (fun x => { x with next := some cur })
      let d := d.set cur (fun x => { x with prev := l })
      d.set parent (fun x => { x with last := some cur })

/-- `xmlGetNsProp` (libxml2) with a namespace, src/libsrcml/xpathTransformation.cpp:172: only elements have attributes, and only one with this namespace is found. -/
def Dom.getNsProp (d : Dom) (i : Nat) (name uri : Str) : Option Str :=
  if (d.node i).label.kind = .element then ((d.node i).label.attrs.find? (fun a => a.name = name ∧ a.ns.map (·.2) = some uri)).map (·.value) else none

/-- `xmlNewNsProp` (libxml2), src/libsrcml/xpathTransformation.cpp:185: a new attribute at the end, without a look at the others; nothing for a node that is no element. -/
def Dom.newNsProp (d : Dom) (i : Nat) (a : DomAttr) : Dom :=
  if (d.node i).label.kind = .element then d.set i (fun x => { x with label := { x.label with attrs := x.label.attrs ++ [a] } }) else d

/-- The members of `xpathTransformation` without the query, src/libsrcml/xpathTransformation.hpp:142-160; the namespaces are made in the constructor only. -/
structure XPathMark where
  pre : Str := []
  uri : Str := []
  element : Str := []
  elementNs : Option (Str × Str) := none
  attrPre : Str := []
  attrUri : Str := []
  attrName : Str := []
  attrValue : Str := []
  attrNs : Option (Str × Str) := none
  deriving DecidableEq, Repr

/-- The constructor for `srcml_append_transform_xpath_element`, src/libsrcml/xpathTransformation.cpp:62-79 and src/libsrcml/srcml_transform.cpp:167-176. -/
def XPathMark.ofElement (pre uri element : Str) : XPathMark := { pre := pre, uri := uri, element := element, elementNs := some (pre, uri) }

/-- The constructor for `srcml_append_transform_xpath_attribute`, src/libsrcml/xpathTransformation.cpp:62-79 and src/libsrcml/srcml_transform.cpp:149. -/
def XPathMark.ofAttribute (pre uri name value : Str) : XPathMark :=
  { attrPre := pre, attrUri := uri, attrName := name, attrValue := value, attrNs := some (pre, uri) }

/-- The attribute for a transformation that is there, src/libsrcml/srcml_transform.cpp:136-146: the namespace `attr_ns` is not made. -/
def XPathMark.setAttribute (t : XPathMark) (pre uri name value : Str) : XPathMark :=
  { t with attrPre := pre, attrUri := uri, attrName := name, attrValue := value }

/-- `append_attribute_to_node`, src/libsrcml/xpathTransformation.cpp:169-186; `uri` is the parameter `attr_uri` (the prefix is not used). -/
def XPathMark.appendAttribute (t : XPathMark) (d : Dom) (i : Nat) (uri : Str) : Dom :=
  let new := match d.getNsProp i t.attrName uri with
    | some v => if v ≠ t.attrValue then v ++ ' ' :: t.attrValue else t.attrValue
    | none => t.attrValue
  d.newNsProp i { ns := t.attrNs, name := t.attrName, value := new }

/-- One round of the loop of `addElementXPathResults`, src/libsrcml/xpathTransformation.cpp:366-393. -/
def XPathMark.addElementAt (t : XPathMark) (root : Nat) (d : Dom) (i : Nat) : Dom :=
  let e := (d.newNode t.elementNs t.element).1
  let d := (d.newNode t.elementNs t.element).2
  let d := if t.attrName ≠ [] then t.appendAttribute d e (if t.attrUri ≠ [] then t.attrUri else t.uri) else d
  if root ≠ i then (d.replaceNode i e).addChild e i
  else
    let d := d.set e (fun x => { x with children := (d.node i).children, last := (d.node i).last, parent := some i, next := none, prev := none })
    d.set i (fun x => { x with children := some e, last := some e })

/-- `addElementXPathResults`, src/libsrcml/xpathTransformation.cpp:357-394, for the nodes of the result in order. -/
def XPathMark.addElements (t : XPathMark) (root : Nat) (d : Dom) (nodes : List Nat) : Dom := nodes.foldl (t.addElementAt root) d

/-- The loop for an attribute, src/libsrcml/xpathTransformation.cpp:322-332: the value of the attribute is passed as the namespace. -/
def XPathMark.addAttributes (t : XPathMark) (d : Dom) (nodes : List Nat) : Dom := nodes.foldl (fun d i => t.appendAttribute d i t.attrValue) d

/-- The value of an XPath expression (`xmlXPathObject`, libxml2), src/libsrcml/xpathTransformation.cpp:285-309: a set of nodes (possibly a null pointer), or a value. -/
inductive XPathValue (D : Type) where
  | nodes (ns : Option (List Nat))
  | bool (b : Bool)
  | number (x : D)
  | string (s : Str)
  | other

/-- `xpathTransformation::apply`, src/libsrcml/xpathTransformation.cpp:257-349, for the value of the expression (`none`: the evaluation failed): the result and the document
afterwards. The types of values are those of libxml2, 1 to 4 (`other` stands for one of the further ones). -/
def XPathMark.apply {D : Type} (t : XPathMark) (zero : D) (root : Nat) (d : Dom) : Option (XPathValue D) → TResult Nat D × Dom
  | none => ({ number := zero }, d)
  | some (.bool b) => ({ nodeType := 2, number := zero, bool := b }, d)
  | some (.number x) => ({ nodeType := 3, number := x }, d)
  | some (.string s) => ({ nodeType := 4, number := zero, string := s }, d)
  | some .other => ({ nodeType := 5, number := zero }, d)
  | some (.nodes ns) =>
    if t.element ≠ [] then
      ({ nodeType := RESULT_UNITS, nodeset := some [root], number := zero, unitWrapped := true }, t.addElements root d (ns.getD []))
    else if t.attrName ≠ [] then
      ({ nodeType := RESULT_UNITS, nodeset := some [root], number := zero, unitWrapped := true }, t.addAttributes d (ns.getD []))
    else match ns.getD [] with
      | [] => ({ nodeType := RESULT_NONE, number := zero }, d)
      | i :: is =>
        ({ nodeType := RESULT_UNITS, nodeset := some (i :: is), number := zero, unitWrapped := decide ((d.node i).label.name = chars! "unit") }, d)

/-- The top nodes of the document that a stylesheet made, as `xsltTransformation::apply` sees them, src/libsrcml/xsltTransformation.cpp:159-192. -/
inductive XsltTop where
  | element (id : Nat)
  | text (id : Nat) (content : Str)
  | other (id : Nat)
  deriving DecidableEq, Repr

/-- The address of a top node, src/libsrcml/xsltTransformation.cpp:165, 183. -/
def XsltTop.id : XsltTop → Nat
  | .element i => i
  | .text i _ => i
  | .other i => i

/-- Is the type 1, that of an element? src/libsrcml/xsltTransformation.cpp:167, 171, 181. -/
def XsltTop.isElement : XsltTop → Bool
  | .element _ => true
  | _ => false

/-- `xmlEncodeSpecialChars` (libxml2), which `xmlNodeListGetRawString` applies to each text when its last argument is 0, src/libsrcml/xsltTransformation.cpp:189. -/
def encodeSpecial (s : Str) : Str := s.flatMap (fun ch =>
  if ch = '<' then "&lt;".toList else if ch = '>' then "&gt;".toList else if ch = '&' then "&amp;".toList else if ch = '"' then "&quot;".toList
  else if ch = '\r' then "&#13;".toList else [ch])

/-- `xmlNodeListGetRawString` (libxml2) for a list of nodes, src/libsrcml/xsltTransformation.cpp:189; a null pointer when there is no text among them. -/
def xsltText (ns : List XsltTop) : Option Str :=
  let ts := ns.filterMap (fun n => match n with
    | .text _ s => some (encodeSpecial s)
    | _ => none)
  if ts = [] then none else some (ts.flatMap id)

/-- `xsltTransformation::apply`, src/libsrcml/xsltTransformation.cpp:143-194, for the top nodes of the document (`none`: the stylesheet failed). When the text is asked for and
there is none, a null pointer is assigned to a string: undefined behaviour. -/
def xsltApply {D : Type} (zero : D) : Option (List XsltTop) → Run (TResult Nat D)
  | none => .val { number := zero }
  | some [] => .val { number := zero }
  | some (n :: ns) =>
    if (ns.head?.map XsltTop.isElement).getD false then
      .val { nodeType := RESULT_UNITS, nodeset := some (((n :: ns).filter XsltTop.isElement).map XsltTop.id), number := zero, unitWrapped := true }
    else if n.isElement then .val { nodeType := RESULT_UNITS, nodeset := some [n.id], number := zero, unitWrapped := true }
    else match xsltText (n :: ns) with
      | none => .ub
      | some s => .val { nodeType := RESULT_STRING, nodeset := some [n.id], number := zero, string := s, unitWrapped := true }

end Srcml
