import Verif.Model.Emit
/-! # Specification: places in the generated code -/
namespace Bindgen.Spec

/-- The items contain `pub mod i1 { … pub mod ik { content } … }` for the names `i1 … ik`. -/
inductive ModChain : List Item → List Str → List Item → Prop
  | here {items : List Item} {allow : Bool} {doc : Option Str} {i : Str} {content : List Item} :
      .mod allow doc i content ∈ items → ModChain items [i] content
  | nested {items inner content : List Item} {allow : Bool} {doc : Option Str} {i : Str} {is : List Str} :
      .mod allow doc i inner ∈ items → ModChain inner is content → ModChain items (i :: is) content

/-- The item occurs among the items, at any depth. -/
inductive Within (x : Item) : List Item → Prop
  | top {items : List Item} : x ∈ items → Within x items
  | sub {items inner : List Item} {allow : Bool} {doc : Option Str} {i : Str} :
      .mod allow doc i inner ∈ items → Within x inner → Within x items

end Bindgen.Spec
