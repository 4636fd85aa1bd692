import Verif.Model.Base

/-! # Colour schemes (colorschemes.py) and default colours (causetplotting.py:21-39)

A dictionary is a list of pairs of key and value, in insertion order, without repeated keys.  Values of plot parameters are strings or anything else (`PyVal.other`).
The dictionaries of `ColorSchemes` are taken as in the file: that a user changes them is not modelled. -/

namespace Causets

/-- a colour scheme: a dictionary of strings -/
abbrev Scheme := List (String × String)

/-- `ColorSchemes`, colorschemes.py:17-78 -/
def colorSchemes : List (String × Scheme) :=
  [("matplotlib", [("core", "tab:blue"), ("black", "black"), ("gray", "tab:gray"), ("grey", "tab:gray"), ("white", "snow"), ("purple", "tab:purple"), ("blue", "tab:blue"), ("cyan", "tab:cyan"), ("green", "tab:green"), ("lime", "limegreen"), ("yellow", "gold"), ("orange", "tab:orange"), ("red", "tab:red"), ("pink", "tab:pink")]),
   ("UniYork", [("core", "#00627D"), ("black", "#25303B"), ("gray", "#E7E2D3"), ("grey", "#E7E2D3"), ("white", "#E3E5E5"), ("purple", "#9067A9"), ("darkblue", "#00627D"), ("blue", "#0095D6"), ("cyan", "#00ABAA"), ("green", "#65B32E"), ("lime", "#CDD500"), ("yellow", "#FBB800"), ("orange", "#F18625"), ("red", "#E62A32"), ("pink", "#E2388D")]),
   ("ImperialLondon", [("core", "#002147"), ("black", "#002147"), ("gray", "#EBEEEE"), ("grey", "#EBEEEE"), ("coolgrey", "#9D9D9D"), ("white", "#D4EFFC"), ("violet", "#960078"), ("iris", "#751E66"), ("purple", "#653098"), ("plum", "#321E6D"), ("navy", "#002147"), ("darkblue", "#003E74"), ("blue", "#006EAF"), ("cyan", "#009CBC"), ("green", "#02893B"), ("kermitgreen", "#66A40A"), ("lime", "#BBCEOO"), ("yellow", "#FFDD00"), ("tangerine", "#EC7300"), ("orange", "#D24000"), ("cherry", "#E40043"), ("red", "#DD2501"), ("brick", "#A51900"), ("pink", "#C81E78"), ("raspberry", "#9F004E")])]

/-- the initial value of `__global_color_scheme`, colorschemes.py:80 -/
def initialScheme : Scheme := (colorSchemes.lookup "matplotlib").getD []

/-- `value.startswith('cs:')` -/
def startsCs (v : String) : Bool := v.toList.take 3 == ['c', 's', ':']

/-- `value[3:]` -/
def dropCs (v : String) : String := String.ofList (v.toList.drop 3)

/-- `CS[key]` -/
def schemeGet (CS : Scheme) (key : String) : Except Err String := match CS.lookup key with
  | some v => .ok v
  | none => .error .keyError

/-- `pickColorScheme`, colorschemes.py:83-91 -/
def pickColorScheme (name : String) : Except Err Scheme := match colorSchemes.lookup name with
  | some s => .ok s
  | none => .error .valueError

/-- `setGlobalColorScheme`, colorschemes.py:94-99: the outcome and the new global scheme -/
def setGlobalColorScheme (name : String) (g : Scheme) : Except Err Unit × Scheme := match pickColorScheme name with
  | .error x => (.error x, g)
  | .ok s => (.ok (), s)

/-- the scheme `CS` of the next three functions; `g` is the global scheme -/
def chosenScheme (g : Scheme) (schemeName : Option String) : Except Err Scheme := match schemeName with
  | none => .ok g
  | some n => pickColorScheme n

/-- `getColor`, colorschemes.py:109-117, with `getGlobalColorScheme`, colorschemes.py:102-106 -/
def getColor (g : Scheme) (color : String) (schemeName : Option String) : Except Err String := match chosenScheme g schemeName with
  | .error x => .error x
  | .ok CS => if startsCs color then schemeGet CS (dropCs color) else .ok color

/-- a value in a dictionary of plot parameters: a string or anything else -/
inductive PyVal (β : Type)
  | str (s : String)
  | other (x : β)

/-- the loop of `convertColorsInDict`, colorschemes.py:127-130 (entries before a KeyError stay converted) -/
def convertDictLoop {β : Type} (CS : Scheme) : List (String × PyVal β) → Except Err Unit × List (String × PyVal β)
  | [] => (.ok (), [])
  | (k, .other x) :: d => let r := convertDictLoop CS d; (r.1, (k, .other x) :: r.2)
  | (k, .str v) :: d =>
    if startsCs v then
      match schemeGet CS (dropCs v) with
      | .error x => (.error x, (k, .str v) :: d)
      | .ok c => let r := convertDictLoop CS d; (r.1, (k, .str c) :: r.2)
    else let r := convertDictLoop CS d; (r.1, (k, .str v) :: r.2)

/-- `convertColorsInDict`, colorschemes.py:120-131: the outcome and the (modified, returned) dictionary -/
def convertColorsInDict {β : Type} (g : Scheme) (d : List (String × PyVal β)) (schemeName : Option String) : Except Err Unit × List (String × PyVal β) :=
  match chosenScheme g schemeName with
  | .error x => (.error x, d)
  | .ok CS => convertDictLoop CS d

/-- the loop of `convertColorsInList`, colorschemes.py:141-144 -/
def convertListLoop (CS : Scheme) : List String → Except Err Unit × List String
  | [] => (.ok (), [])
  | v :: d =>
    if startsCs v then
      match schemeGet CS (dropCs v) with
      | .error x => (.error x, v :: d)
      | .ok c => let r := convertListLoop CS d; (r.1, c :: r.2)
    else let r := convertListLoop CS d; (r.1, v :: r.2)

/-- `convertColorsInList`, colorschemes.py:134-145 -/
def convertColorsInList (g : Scheme) (d : List String) (schemeName : Option String) : Except Err Unit × List String :=
  match chosenScheme g schemeName with
  | .error x => (.error x, d)
  | .ok CS => convertListLoop CS d

/-- `default_colors`, causetplotting.py:21-27 -/
def defaultColors : Scheme := [("links", "cs:blue"), ("linksedge", "cs:blue"), ("linksface", "cs:cyan"), ("eventsedge", "cs:black"), ("eventsface", "cs:core"),
  ("conesedge", "cs:yellow"), ("conesface", "cs:yellow")]

/-- `d[key] = value` -/
def dictSet {β : Type} (key : String) (v : β) : List (String × β) → List (String × β)
  | [] => [(key, v)]
  | (k, x) :: d => if k = key then (k, v) :: d else (k, x) :: dictSet key v d

/-- `d.update(e)` -/
def dictUpdate {β : Type} (d e : List (String × β)) : List (String × β) := e.foldl (fun d p => dictSet p.1 p.2 d) d

/-- `setDefaultColors`, causetplotting.py:30-39: the outcome, the global scheme, the default colours -/
def setDefaultColors (name : String) (kwargs : Scheme) (g defaults : Scheme) : Except Err Unit × Scheme × Scheme := match setGlobalColorScheme name g with
  | (.error x, g1) => (.error x, g1, defaults)
  | (.ok _, g1) => (.ok (), g1, dictUpdate defaults kwargs)

end Causets
