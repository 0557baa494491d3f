import Verif.Model.Key
/-!
# Filters

Models `src/common/Filter.h`. Strings are lists of characters, one per byte. Regular
expression search (`std::regex_search`) is not modelled: it is a parameter
`rx pattern text : Bool` of the functions using it.
-/
namespace KM

/-- `std::string` as the list of its bytes -/
abbrev Str := List Char

/-- `std::regex_search(text, regex)`, where the regular expression is identified by the
filter string it was compiled from. -/
abbrev Regex := Str → Str → Bool

/-- `Filter.h:7-10`. `isRegex` is `regex.has_value()`. -/
structure Filter where
  string : Str := []
  isRegex : Bool := false
  invert : Bool := false
deriving DecidableEq, Repr, Inhabited

/-- `std::string::find(needle) != npos` -/
def strContains (needle : Str) : Str → Bool
  | [] => needle.isEmpty
  | c :: cs => needle.isPrefixOf (c :: cs) || strContains needle cs

/-- `Filter.h:16-24` -/
def Filter.matchesUninverted (rx : Regex) (f : Filter) (text : Str) (substring : Bool) : Bool :=
  if f.string.isEmpty then true
  else if f.isRegex then rx f.string text
  else if substring then strContains f.string text
  else text == f.string

/-- `Filter.h:12-14` -/
def Filter.matches (rx : Regex) (f : Filter) (text : Str) (substring : Bool) : Bool :=
  (f.matchesUninverted rx text substring) ^^ f.invert

/-- `Filter.h:26-28` `explicit operator bool` -/
def Filter.isSet (f : Filter) : Bool := !f.string.isEmpty

/-- `Filter.h:31-33` -/
structure GrabDeviceFilter extends Filter where
  byId : Bool := false
deriving DecidableEq, Repr, Inhabited

/-- `Filter.h:35-44` -/
def evaluateGrabFilters (rx : Regex) (filters : List GrabDeviceFilter) (name id : Str)
    (grab : Bool) : Bool :=
  filters.foldl (fun grab f =>
    if f.toFilter.matchesUninverted rx (if f.byId then id else name) false then !f.invert
    else grab) grab

end KM
