import Verif.Model.Naming

/-!
# The spelling of the node types

The names of node types, spelled out, and the facts about them that make generated names
unambiguous: no two differ only in case, the few that end in a digit (`ReduceL1`, `ReduceL2`) do
not become another one when the digit is dropped, and none contains an underscore.
-/

namespace OnnxIR

/-- `nodeTypes` as lists of characters. -/
def typeChars : List (List Char) :=
  [['A', 'd', 'd'],
   ['S', 'u', 'b'],
   ['M', 'u', 'l'],
   ['D', 'i', 'v'],
   ['N', 'e', 'g'],
   ['A', 'b', 's'],
   ['P', 'o', 'w'],
   ['R', 'e', 'c', 'i', 'p', 'r', 'o', 'c', 'a', 'l'],
   ['S', 'q', 'r', 't'],
   ['E', 'x', 'p'],
   ['L', 'o', 'g'],
   ['C', 'e', 'i', 'l'],
   ['F', 'l', 'o', 'o', 'r'],
   ['R', 'o', 'u', 'n', 'd'],
   ['S', 'i', 'g', 'n'],
   ['E', 'r', 'f'],
   ['S', 'i', 'n'],
   ['C', 'o', 's'],
   ['T', 'a', 'n'],
   ['A', 's', 'i', 'n'],
   ['A', 'c', 'o', 's'],
   ['A', 't', 'a', 'n'],
   ['S', 'i', 'n', 'h'],
   ['C', 'o', 's', 'h'],
   ['T', 'a', 'n', 'h'],
   ['A', 's', 'i', 'n', 'h'],
   ['A', 'c', 'o', 's', 'h'],
   ['A', 't', 'a', 'n', 'h'],
   ['R', 'e', 'l', 'u'],
   ['S', 'i', 'g', 'm', 'o', 'i', 'd'],
   ['S', 'o', 'f', 't', 'm', 'a', 'x'],
   ['L', 'o', 'g', 'S', 'o', 'f', 't', 'm', 'a', 'x'],
   ['L', 'e', 'a', 'k', 'y', 'R', 'e', 'l', 'u'],
   ['H', 'a', 'r', 'd', 'S', 'i', 'g', 'm', 'o', 'i', 'd'],
   ['E', 'l', 'u'],
   ['S', 'e', 'l', 'u'],
   ['C', 'e', 'l', 'u'],
   ['G', 'e', 'l', 'u'],
   ['M', 'i', 's', 'h'],
   ['S', 'o', 'f', 't', 'p', 'l', 'u', 's'],
   ['S', 'o', 'f', 't', 's', 'i', 'g', 'n'],
   ['T', 'h', 'r', 'e', 's', 'h', 'o', 'l', 'd', 'e', 'd', 'R', 'e', 'l', 'u'],
   ['H', 'a', 'r', 'd', 'S', 'w', 'i', 's', 'h'],
   ['P', 'R', 'e', 'l', 'u'],
   ['E', 'q', 'u', 'a', 'l'],
   ['G', 'r', 'e', 'a', 't', 'e', 'r'],
   ['G', 'r', 'e', 'a', 't', 'e', 'r', 'O', 'r', 'E', 'q', 'u', 'a', 'l'],
   ['L', 'e', 's', 's'],
   ['L', 'e', 's', 's', 'O', 'r', 'E', 'q', 'u', 'a', 'l'],
   ['A', 'n', 'd'],
   ['O', 'r'],
   ['X', 'o', 'r'],
   ['N', 'o', 't'],
   ['W', 'h', 'e', 'r', 'e'],
   ['B', 'i', 't', 'w', 'i', 's', 'e', 'A', 'n', 'd'],
   ['B', 'i', 't', 'w', 'i', 's', 'e', 'O', 'r'],
   ['B', 'i', 't', 'w', 'i', 's', 'e', 'X', 'o', 'r'],
   ['B', 'i', 't', 'w', 'i', 's', 'e', 'N', 'o', 't'],
   ['B', 'i', 't', 'S', 'h', 'i', 'f', 't'],
   ['A', 'r', 'g', 'M', 'a', 'x'],
   ['A', 'r', 'g', 'M', 'i', 'n'],
   ['R', 'e', 'd', 'u', 'c', 'e', 'M', 'a', 'x'],
   ['R', 'e', 'd', 'u', 'c', 'e', 'M', 'i', 'n'],
   ['R', 'e', 'd', 'u', 'c', 'e', 'M', 'e', 'a', 'n'],
   ['R', 'e', 'd', 'u', 'c', 'e', 'S', 'u', 'm'],
   ['R', 'e', 'd', 'u', 'c', 'e', 'P', 'r', 'o', 'd'],
   ['R', 'e', 'd', 'u', 'c', 'e', 'L', '1'],
   ['R', 'e', 'd', 'u', 'c', 'e', 'L', '2'],
   ['R', 'e', 'd', 'u', 'c', 'e', 'L', 'o', 'g', 'S', 'u', 'm'],
   ['R', 'e', 'd', 'u', 'c', 'e', 'L', 'o', 'g', 'S', 'u', 'm', 'E', 'x', 'p'],
   ['R', 'e', 'd', 'u', 'c', 'e', 'S', 'u', 'm', 'S', 'q', 'u', 'a', 'r', 'e'],
   ['M', 'a', 'x'],
   ['M', 'i', 'n'],
   ['M', 'e', 'a', 'n'],
   ['S', 'u', 'm'],
   ['C', 'a', 's', 't'],
   ['C', 'l', 'i', 'p'],
   ['C', 'o', 'n', 'c', 'a', 't'],
   ['E', 'x', 'p', 'a', 'n', 'd'],
   ['F', 'l', 'a', 't', 't', 'e', 'n'],
   ['G', 'a', 't', 'h', 'e', 'r'],
   ['G', 'a', 't', 'h', 'e', 'r', 'E', 'l', 'e', 'm', 'e', 'n', 't', 's'],
   ['G', 'a', 't', 'h', 'e', 'r', 'N', 'D'],
   ['P', 'a', 'd'],
   ['R', 'e', 's', 'h', 'a', 'p', 'e'],
   ['R', 'e', 's', 'i', 'z', 'e'],
   ['S', 'c', 'a', 't', 't', 'e', 'r'],
   ['S', 'c', 'a', 't', 't', 'e', 'r', 'E', 'l', 'e', 'm', 'e', 'n', 't', 's'],
   ['S', 'c', 'a', 't', 't', 'e', 'r', 'N', 'D'],
   ['S', 'h', 'a', 'p', 'e'],
   ['S', 'i', 'z', 'e'],
   ['S', 'l', 'i', 'c', 'e'],
   ['S', 'p', 'l', 'i', 't'],
   ['S', 'q', 'u', 'e', 'e', 'z', 'e'],
   ['T', 'i', 'l', 'e'],
   ['T', 'r', 'a', 'n', 's', 'p', 'o', 's', 'e'],
   ['U', 'n', 's', 'q', 'u', 'e', 'e', 'z', 'e'],
   ['D', 'e', 'p', 't', 'h', 'T', 'o', 'S', 'p', 'a', 'c', 'e'],
   ['S', 'p', 'a', 'c', 'e', 'T', 'o', 'D', 'e', 'p', 't', 'h'],
   ['M', 'a', 't', 'M', 'u', 'l'],
   ['M', 'a', 't', 'M', 'u', 'l', 'I', 'n', 't', 'e', 'g', 'e', 'r'],
   ['G', 'e', 'm', 'm'],
   ['C', 'o', 'n', 'v', '1', 'd'],
   ['C', 'o', 'n', 'v', '2', 'd'],
   ['C', 'o', 'n', 'v', '3', 'd'],
   ['C', 'o', 'n', 'v', 'T', 'r', 'a', 'n', 's', 'p', 'o', 's', 'e', '1', 'd'],
   ['C', 'o', 'n', 'v', 'T', 'r', 'a', 'n', 's', 'p', 'o', 's', 'e', '2', 'd'],
   ['C', 'o', 'n', 'v', 'T', 'r', 'a', 'n', 's', 'p', 'o', 's', 'e', '3', 'd'],
   ['A', 'v', 'e', 'r', 'a', 'g', 'e', 'P', 'o', 'o', 'l', '1', 'd'],
   ['A', 'v', 'e', 'r', 'a', 'g', 'e', 'P', 'o', 'o', 'l', '2', 'd'],
   ['M', 'a', 'x', 'P', 'o', 'o', 'l', '1', 'd'],
   ['M', 'a', 'x', 'P', 'o', 'o', 'l', '2', 'd'],
   ['G', 'l', 'o', 'b', 'a', 'l', 'A', 'v', 'e', 'r', 'a', 'g', 'e', 'P', 'o', 'o', 'l'],
   ['G', 'l', 'o', 'b', 'a', 'l', 'M', 'a', 'x', 'P', 'o', 'o', 'l'],
   ['B', 'a', 't', 'c', 'h', 'N', 'o', 'r', 'm', 'a', 'l', 'i', 'z', 'a', 't', 'i', 'o', 'n'],
   ['I', 'n', 's', 't', 'a', 'n', 'c', 'e', 'N', 'o', 'r', 'm', 'a', 'l', 'i', 'z', 'a', 't', 'i', 'o', 'n'],
   ['L', 'a', 'y', 'e', 'r', 'N', 'o', 'r', 'm', 'a', 'l', 'i', 'z', 'a', 't', 'i', 'o', 'n'],
   ['G', 'r', 'o', 'u', 'p', 'N', 'o', 'r', 'm', 'a', 'l', 'i', 'z', 'a', 't', 'i', 'o', 'n'],
   ['D', 'r', 'o', 'p', 'o', 'u', 't'],
   ['L', 'i', 'n', 'e', 'a', 'r'],
   ['A', 't', 't', 'e', 'n', 't', 'i', 'o', 'n'],
   ['C', 'o', 'n', 's', 't', 'a', 'n', 't'],
   ['C', 'o', 'n', 's', 't', 'a', 'n', 't', 'O', 'f', 'S', 'h', 'a', 'p', 'e'],
   ['E', 'y', 'e', 'L', 'i', 'k', 'e'],
   ['I', 'd', 'e', 'n', 't', 'i', 't', 'y'],
   ['R', 'a', 'n', 'd', 'o', 'm', 'N', 'o', 'r', 'm', 'a', 'l'],
   ['R', 'a', 'n', 'd', 'o', 'm', 'U', 'n', 'i', 'f', 'o', 'r', 'm'],
   ['R', 'a', 'n', 'd', 'o', 'm', 'N', 'o', 'r', 'm', 'a', 'l', 'L', 'i', 'k', 'e'],
   ['R', 'a', 'n', 'd', 'o', 'm', 'U', 'n', 'i', 'f', 'o', 'r', 'm', 'L', 'i', 'k', 'e'],
   ['B', 'e', 'r', 'n', 'o', 'u', 'l', 'l', 'i'],
   ['R', 'a', 'n', 'g', 'e'],
   ['O', 'n', 'e', 'H', 'o', 't'],
   ['I', 'f'],
   ['L', 'o', 'o', 'p'],
   ['S', 'c', 'a', 'n'],
   ['I', 's', 'I', 'n', 'f'],
   ['I', 's', 'N', 'a', 'N'],
   ['N', 'o', 'n', 'Z', 'e', 'r', 'o'],
   ['T', 'o', 'p', 'K'],
   ['U', 'n', 'i', 'q', 'u', 'e'],
   ['T', 'r', 'i', 'l', 'u'],
   ['M', 'o', 'd'],
   ['C', 'u', 'm', 'S', 'u', 'm'],
   ['A', 'f', 'f', 'i', 'n', 'e', 'G', 'r', 'i', 'd'],
   ['A', 'v', 'e', 'r', 'a', 'g', 'e', 'P', 'o', 'o', 'l'],
   ['B', 'l', 'a', 'c', 'k', 'm', 'a', 'n', 'W', 'i', 'n', 'd', 'o', 'w'],
   ['C', 'a', 's', 't', 'L', 'i', 'k', 'e'],
   ['C', 'e', 'n', 't', 'e', 'r', 'C', 'r', 'o', 'p', 'P', 'a', 'd'],
   ['C', 'o', 'l', '2', 'I', 'm'],
   ['C', 'o', 'm', 'p', 'r', 'e', 's', 's'],
   ['C', 'o', 'n', 'c', 'a', 't', 'F', 'r', 'o', 'm', 'S', 'e', 'q', 'u', 'e', 'n', 'c', 'e'],
   ['C', 'o', 'n', 'v'],
   ['C', 'o', 'n', 'v', 'I', 'n', 't', 'e', 'g', 'e', 'r'],
   ['C', 'o', 'n', 'v', 'T', 'r', 'a', 'n', 's', 'p', 'o', 's', 'e'],
   ['D', 'f', 't'],
   ['D', 'e', 'f', 'o', 'r', 'm', 'C', 'o', 'n', 'v'],
   ['D', 'e', 'q', 'u', 'a', 'n', 't', 'i', 'z', 'e', 'L', 'i', 'n', 'e', 'a', 'r'],
   ['D', 'e', 't'],
   ['D', 'y', 'n', 'a', 'm', 'i', 'c', 'Q', 'u', 'a', 'n', 't', 'i', 'z', 'e', 'L', 'i', 'n', 'e', 'a', 'r'],
   ['E', 'i', 'n', 's', 'u', 'm'],
   ['G', 'r', 'i', 'd', 'S', 'a', 'm', 'p', 'l', 'e'],
   ['G', 'r', 'u'],
   ['H', 'a', 'm', 'm', 'i', 'n', 'g', 'W', 'i', 'n', 'd', 'o', 'w'],
   ['H', 'a', 'n', 'n', 'W', 'i', 'n', 'd', 'o', 'w'],
   ['H', 'a', 'r', 'd', 'm', 'a', 'x'],
   ['I', 'm'],
   ['I', 'm', 'a', 'g', 'e', 'D', 'e', 'c', 'o', 'd', 'e', 'r'],
   ['L', 'p', 'N', 'o', 'r', 'm', 'a', 'l', 'i', 'z', 'a', 't', 'i', 'o', 'n'],
   ['L', 'p', 'P', 'o', 'o', 'l'],
   ['L', 'r', 'n'],
   ['L', 's', 't', 'm'],
   ['M', 'a', 'x', 'P', 'o', 'o', 'l'],
   ['M', 'a', 'x', 'R', 'o', 'i', 'P', 'o', 'o', 'l'],
   ['M', 'a', 'x', 'U', 'n', 'p', 'o', 'o', 'l'],
   ['M', 'e', 'a', 'n', 'V', 'a', 'r', 'i', 'a', 'n', 'c', 'e', 'N', 'o', 'r', 'm', 'a', 'l', 'i', 'z', 'a', 't', 'i', 'o', 'n'],
   ['M', 'e', 'l', 'W', 'e', 'i', 'g', 'h', 't', 'M', 'a', 't', 'r', 'i', 'x'],
   ['M', 'u', 'l', 't', 'i', 'n', 'o', 'm', 'i', 'a', 'l'],
   ['N', 'e', 'g', 'a', 't', 'i', 'v', 'e', 'L', 'o', 'g', 'L', 'i', 'k', 'e', 'l', 'i', 'h', 'o', 'o', 'd', 'L', 'o', 's', 's'],
   ['N', 'o', 'n', 'M', 'a', 'x', 'S', 'u', 'p', 'p', 'r', 'e', 's', 's', 'i', 'o', 'n'],
   ['O', 'p', 't', 'i', 'o', 'n', 'a', 'l'],
   ['O', 'p', 't', 'i', 'o', 'n', 'a', 'l', 'G', 'e', 't', 'E', 'l', 'e', 'm', 'e', 'n', 't'],
   ['O', 'p', 't', 'i', 'o', 'n', 'a', 'l', 'H', 'a', 's', 'E', 'l', 'e', 'm', 'e', 'n', 't'],
   ['Q', 'L', 'i', 'n', 'e', 'a', 'r', 'C', 'o', 'n', 'v'],
   ['Q', 'L', 'i', 'n', 'e', 'a', 'r', 'M', 'a', 't', 'M', 'u', 'l'],
   ['Q', 'u', 'a', 'n', 't', 'i', 'z', 'e', 'L', 'i', 'n', 'e', 'a', 'r'],
   ['R', 'M', 'S', 'N', 'o', 'r', 'm', 'a', 'l', 'i', 'z', 'a', 't', 'i', 'o', 'n'],
   ['R', 'n', 'n'],
   ['R', 'e', 'g', 'e', 'x', 'F', 'u', 'l', 'l', 'M', 'a', 't', 'c', 'h'],
   ['R', 'e', 'v', 'e', 'r', 's', 'e', 'S', 'e', 'q', 'u', 'e', 'n', 'c', 'e'],
   ['R', 'o', 'i', 'A', 'l', 'i', 'g', 'n'],
   ['R', 'o', 't', 'a', 'r', 'y', 'E', 'm', 'b', 'e', 'd', 'd', 'i', 'n', 'g'],
   ['S', 'e', 'q', 'u', 'e', 'n', 'c', 'e', 'A', 't'],
   ['S', 'e', 'q', 'u', 'e', 'n', 'c', 'e', 'C', 'o', 'n', 's', 't', 'r', 'u', 'c', 't'],
   ['S', 'e', 'q', 'u', 'e', 'n', 'c', 'e', 'E', 'm', 'p', 't', 'y'],
   ['S', 'e', 'q', 'u', 'e', 'n', 'c', 'e', 'E', 'r', 'a', 's', 'e'],
   ['S', 'e', 'q', 'u', 'e', 'n', 'c', 'e', 'I', 'n', 's', 'e', 'r', 't'],
   ['S', 'e', 'q', 'u', 'e', 'n', 'c', 'e', 'L', 'e', 'n', 'g', 't', 'h'],
   ['S', 'e', 'q', 'u', 'e', 'n', 'c', 'e', 'M', 'a', 'p'],
   ['S', 'h', 'r', 'i', 'n', 'k'],
   ['S', 'o', 'f', 't', 'm', 'a', 'x', 'C', 'r', 'o', 's', 's', 'E', 'n', 't', 'r', 'o', 'p', 'y', 'L', 'o', 's', 's'],
   ['S', 'p', 'l', 'i', 't', 'T', 'o', 'S', 'e', 'q', 'u', 'e', 'n', 'c', 'e'],
   ['S', 't', 'f', 't'],
   ['S', 't', 'r', 'i', 'n', 'g', 'C', 'o', 'n', 'c', 'a', 't'],
   ['S', 't', 'r', 'i', 'n', 'g', 'N', 'o', 'r', 'm', 'a', 'l', 'i', 'z', 'e', 'r'],
   ['S', 't', 'r', 'i', 'n', 'g', 'S', 'p', 'l', 'i', 't'],
   ['S', 'w', 'i', 's', 'h'],
   ['T', 'e', 'n', 's', 'o', 'r', 'S', 'c', 'a', 't', 't', 'e', 'r'],
   ['T', 'f', 'I', 'd', 'f', 'V', 'e', 'c', 't', 'o', 'r', 'i', 'z', 'e', 'r'],
   ['U', 'p', 's', 'a', 'm', 'p', 'l', 'e']]

set_option maxRecDepth 100000 in
theorem nodeTypes_eq : nodeTypes = typeChars.map String.ofList := rfl

/-- The lower-case spelling as one number. -/
def charCode (l : List Char) : Nat := (l.map Char.toLower).foldl (fun a c => a * 256 + c.toNat) 1

/-- The numbers of all node types. -/
def typeCodes : List Nat :=
  [23159908, 24343906, 23950700, 23357814, 24012135, 23159411, 24145783,
   1749145883193532500631916, 6231782004, 23427184, 23883623, 5962557804, 1539417534322,
   1591007866468, 6231254894, 23425638, 24340846, 23293811, 24404334, 5929920878, 5928873843,
   5929984366, 6231256680, 5963215720, 6247509608, 1518059744872, 1517791703912, 1518075997800,
   6214216821, 104543109298219364, 104549702190326136, 1720996442781026676990328,
   6721920081070202907765, 435673474777174180421921124, 23424117, 6230994037, 5962558581,
   6029667445, 6130594664, 26764723760774542707, 26764723760824674158,
   1933652865381767920396744869628177525, 6647849651751550022504, 1582467214453, 1535206842732,
   101175296391406962, 7290448434039038154253244640354668, 6113555315,
   440528087048056147155444076, 23162468, 94066, 24670066, 24014708, 1612364214885,
   1673663035355968879816292, 6537746231859253440370, 1673663035355968881323890,
   1673663035355968880668532, 25538071201002907252, 388618966098296, 388618966100334,
   6832601400837799764344, 6832601400837799766382, 1749145958614476739928430,
   6832601400837800162669, 1749145958614476791115620, 26689849222022655025, 26689849222022655026,
   114632029543758346571488654701, 1923206320174015232232724601474742384,
   1923206320174015361793967514483520101, 23945592, 23947630, 6130327918, 24343917, 5962298228,
   5963016560, 390805221237108, 393042932624996, 100887207483827566, 395143239198066,
   7289106205943327090815096117425267, 25896107324084481636, 24142180, 104257287729803365,
   407255030266469, 104536486576416114, 1928357814239922052800778499020190835,
   6850903184272006475364, 1595184083045, 6231259749, 1595251712869, 1595319019892,
   104551965385914981, 6248033381, 6870430785655104566117, 6888594369209182812773,
   110299296056575079382079595365, 114954798238602951189410641000, 401740309296492,
   28948440115958256576184304756082, 6029667693, 390805222469988, 390805222470244,
   390805222470500, 1845525484003752413688585605244858724, 1845525484003752413688585605244858980,
   1845525484003752413688585605244859236, 28004183240348574673249032221028,
   28004183240348574673249032221284, 6740085074146783670628, 6740085074146783670884,
   122305504688507791791215020408005460979564, 28476469379036642191816472358764,
   30870911316037478576876511326269260148862830,
   528232654785123695690575083718568113069656369622894,
   31742040832082477781028286801630353343213422, 31312250993417559569865254350013474053648238,
   100330914662282612, 400675056214386, 6520092101550243671918, 25611811048032136820,
   1845525483075217344233223259525574757, 100620043203210085, 26041050470436926585,
   114627240751417012625655816556, 29344573632362757201354443158125,
   492320250258054534885210822662014200677, 126033984066061969388205820268439650528101,
   6537457428663347473513, 1590772524901, 403994915139444, 92518, 6114209648, 6230860142,
   1552419483238, 1552419807598, 103142361766654575, 6248427627, 410592052606309, 1599647345781,
   23949156, 390830975317357, 1668884315899349364271460, 427309924932076639911636844,
   7188559781481151620308634505080695, 25607875900077599589, 28157389210061829028748003926372,
   390805184473453, 25611809935602316147, 30962779579596652968910487145547860072620901,
   5963214454, 429694886317112410916742514, 28160484069881476038949365314405, 23357044,
   1683032970297166789570166, 473731889694275872684990094212315046258, 23356788,
   520987832342165560484774341944177263380107144552818, 392978475742573,
   1697440090496339459206245, 23556725, 28552290840684980219014480686967,
   1701849225437108421029751, 101438135554892152, 92525, 111856321436713118310605284722,
   1892276435971332981647805928971005806, 400705155198828, 23884398, 6114473069,
   102845536409710444, 1725461779544500874473324, 6740085079640063831916,
   2293627978293293878659313435234568913407561940137762016030574,
   1897245470328047876218152707593234808, 441812441674552563699638636,
   2299905649847753692604007088706179727857406464018936903988083,
   124691463971755098464681117787970800807790, 26476790205501038956,
   32008475299949929538597147849944086081793652, 32008475299949929538601796357393066850872948,
   446605587880947287394840182, 29268743807365761437643333006700,
   7493508992339168381731119590367602, 492382660024692635865792413510501232494, 24276590,
   7512525597391152141673948977062760, 1923207741347380203434716509397476197,
   26692669383599810414, 1923410405749179986090594481465814631, 1753869261848306388394356,
   126379599265865592438313187236244918461300, 29425043441789595512289073591417,
   29425043441789595512289156494181, 7532811121098136451150405230228084,
   7532811121098136451153665026651240, 448990531033166435429736816, 408367410015851,
   35576420122203402092617892285117353882365492168611558259,
   1928622353670292854553067630040605541, 6231975540, 114959714333436928957234766196,
   493748213419614101096321060065452385650, 449061384114988072475322740, 1595436266344,
   29504267968266428212752592168306, 1933611587183962871219839131553785202, 26909134635823819877]

set_option maxRecDepth 100000 in
theorem typeCodes_eq : typeChars.map charCode = typeCodes := by decide +kernel

theorem typeCodes_nodup : typeCodes.Nodup := by decide +kernel

set_option maxRecDepth 100000 in
theorem typeChars_digitEnd : ∀ b ∈ typeChars.map (List.map Char.toLower),
    b.getLast?.any Char.isDigit = true → b.dropLast.getLast?.any Char.isDigit = false ∧
      ∀ a ∈ typeChars.map (List.map Char.toLower), a ≠ b.dropLast := by decide +kernel

set_option maxRecDepth 100000 in
theorem typeChars_noUnder : ∀ b ∈ typeChars.map (List.map Char.toLower), '_' ∉ b := by
  decide +kernel

/-- The lower-case characters of a string. -/
def lowerChars (t : String) : List Char := t.toList.map Char.toLower

theorem lowerChars_mem {t : String} (h : t ∈ nodeTypes) :
    lowerChars t ∈ typeChars.map (List.map Char.toLower) := by
  rw [nodeTypes_eq, List.mem_map] at h
  obtain ⟨l, hl, rfl⟩ := h
  exact List.mem_map.2 ⟨l, hl, by simp [lowerChars]⟩

theorem map_inj_of_nodup {α β : Type} {f : α → β} : ∀ {l : List α}, (l.map f).Nodup →
    ∀ a ∈ l, ∀ b ∈ l, f a = f b → a = b
  | [], _, a, ha => by cases ha
  | c :: l, h, a, ha => by
    intro b hb hab
    rw [List.map_cons, List.nodup_cons] at h
    cases ha with
    | head =>
      cases hb with
      | head => rfl
      | tail _ hb => exact absurd (hab ▸ List.mem_map_of_mem hb) h.1
    | tail _ ha =>
      cases hb with
      | head => exact absurd (hab ▸ List.mem_map_of_mem ha) h.1
      | tail _ hb => exact map_inj_of_nodup h.2 a ha b hb hab

/-- Node types that agree in lower case are the same. -/
theorem lowerChars_inj {a b : String} (ha : a ∈ nodeTypes) (hb : b ∈ nodeTypes)
    (h : lowerChars a = lowerChars b) : a = b := by
  rw [nodeTypes_eq, List.mem_map] at ha hb
  obtain ⟨l, hl, rfl⟩ := ha
  obtain ⟨m, hm, rfl⟩ := hb
  have hn : (typeChars.map charCode).Nodup := typeCodes_eq ▸ typeCodes_nodup
  have hc : charCode l = charCode m := by
    simp only [lowerChars, String.toList_ofList] at h
    simp only [charCode, h]
  rw [map_inj_of_nodup hn l hl m hm hc]

/-- A lower-case type name is not another one followed by digits. -/
theorem lowerChars_prefix {a b : String} (ha : a ∈ nodeTypes) (hb : b ∈ nodeTypes) {p : List Char}
    (hp : ∀ c ∈ p, c.isDigit = true) (h : lowerChars b = lowerChars a ++ p) : a = b := by
  cases hr : p.reverse with
  | nil =>
    have : p = [] := by simpa using hr
    subst this
    exact lowerChars_inj ha hb (by simpa using h.symm)
  | cons c q =>
    exfalso
    have hp' : p = q.reverse ++ [c] := by rw [← List.reverse_reverse p, hr]; simp
    subst hp'
    have hd := typeChars_digitEnd _ (lowerChars_mem hb)
    rw [h, ← List.append_assoc, List.getLast?_append] at hd
    have hd := hd (by simpa using hp c (by simp))
    rw [List.dropLast_concat] at hd
    cases hq : q with
    | nil =>
      subst hq
      exact hd.2 _ (lowerChars_mem ha) (by simp)
    | cons c' q' =>
      subst hq
      have : c'.isDigit = false := by
        have := hd.1
        rw [List.reverse_cons, ← List.append_assoc, List.getLast?_append] at this
        simpa using this
      have h2 := hp c' (by simp)
      rw [this] at h2; cases h2

theorem lowerChars_noUnder {a : String} (ha : a ∈ nodeTypes) : '_' ∉ lowerChars a :=
  typeChars_noUnder _ (lowerChars_mem ha)

end OnnxIR
