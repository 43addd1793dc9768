import Verif.Spec.Pairs

/-! Reading crystals first and comparing them later. -/

namespace Amd

/-- The keywords of `compare` that are for the readers (`reader` to `refcode_families` in the documentation of `compare`). -/
def readingKeys : List String := ["reader", "remove_hydrogens", "disorder", "heaviest_component", "molecular_centres", "show_warnings", "refcode_families"]

/-- The keyword arguments without those for the readers. -/
def withoutReading (kwargs : Kwargs) : Kwargs := kwargs.filter fun p => p.1 ∉ readingKeys

/-- A list of periodic sets as an argument of `compare`. -/
def asSets (cs : List Crystal) : Input := .many (cs.map .pset)

end Amd
