import Verif.Model.Form
/-
The operation types of the Thing Description.
-/
namespace Wot

/-- The names of the operation types in the Thing Description 1.1 recommendation. -/
def standardOperations : List String :=
  ["readproperty", "writeproperty", "observeproperty", "unobserveproperty", "invokeaction",
   "queryaction", "cancelaction", "subscribeevent", "unsubscribeevent", "readallproperties",
   "writeallproperties", "readmultipleproperties", "writemultipleproperties",
   "observeallproperties", "unobserveallproperties", "subscribeallevents", "unsubscribeallevents",
   "queryallactions"]

end Wot
