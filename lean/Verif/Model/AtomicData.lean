import Verif.Model.Comm
import Mathlib.Data.Rat.Floor

/-!
# The table of ionization energies

Models `fbpic/particles/elementary_process/ionization/read_atomic_data.py` and the data file
`atomic_data.txt` beside it. The file is a table with one line per element and ionization state,
which `re.findall` (read_atomic_data.py:73-76) turns into tuples; `atomicData` lists these tuples in
the order of the file (transcribed by a script, lines 55-438). The regular expression itself is not
modelled: `element` is taken to be a plain string of letters, for which a line matches iff its
symbol is `element`.
-/

namespace Fbpic.Adk

/-- One line of `atomic_data.txt`. -/
structure Row where
  /-- `At. num` -/
  atomicNumber : ℕ
  /-- first word of `Sp. Name` -/
  symbol : String
  /-- `Ion Charge` -/
  charge : ℕ
  /-- `Ionization Energy (eV)`, without brackets -/
  energy : ℚ
  deriving DecidableEq

/-- The lines of `atomic_data.txt`, 55-438. -/
def atomicData : List Row :=
  [⟨1, "H", 0, 13.598434005136⟩, ⟨2, "He", 0, 24.587387936⟩, ⟨2, "He", 1, 54.417763110⟩,
   ⟨3, "Li", 0, 5.391714761⟩, ⟨3, "Li", 1, 75.6400937⟩, ⟨3, "Li", 2, 122.45435380⟩,
   ⟨4, "Be", 0, 9.3226990⟩, ⟨4, "Be", 1, 18.211153⟩, ⟨4, "Be", 2, 153.8961980⟩,
   ⟨4, "Be", 3, 217.7185766⟩, ⟨5, "B", 0, 8.2980190⟩, ⟨5, "B", 1, 25.154830⟩,
   ⟨5, "B", 2, 37.930580⟩, ⟨5, "B", 3, 259.3715⟩, ⟨5, "B", 4, 340.2260080⟩,
   ⟨6, "C", 0, 11.260300⟩, ⟨6, "C", 1, 24.38450⟩, ⟨6, "C", 2, 47.88778⟩, ⟨6, "C", 3, 64.49351⟩,
   ⟨6, "C", 4, 392.090500⟩, ⟨6, "C", 5, 489.9931770⟩, ⟨7, "N", 0, 14.534130⟩,
   ⟨7, "N", 1, 29.601250⟩, ⟨7, "N", 2, 47.4453⟩, ⟨7, "N", 3, 77.47350⟩, ⟨7, "N", 4, 97.89013⟩,
   ⟨7, "N", 5, 552.067310⟩, ⟨7, "N", 6, 667.046090⟩, ⟨8, "O", 0, 13.6180540⟩,
   ⟨8, "O", 1, 35.121110⟩, ⟨8, "O", 2, 54.93554⟩, ⟨8, "O", 3, 77.41350⟩, ⟨8, "O", 4, 113.89890⟩,
   ⟨8, "O", 5, 138.1189⟩, ⟨8, "O", 6, 739.326790⟩, ⟨8, "O", 7, 871.409850⟩,
   ⟨9, "F", 0, 17.422820⟩, ⟨9, "F", 1, 34.97081⟩, ⟨9, "F", 2, 62.70800⟩, ⟨9, "F", 3, 87.175⟩,
   ⟨9, "F", 4, 114.2490⟩, ⟨9, "F", 5, 157.16310⟩, ⟨9, "F", 6, 185.18680⟩, ⟨9, "F", 7, 953.89800⟩,
   ⟨9, "F", 8, 1103.117430⟩, ⟨10, "Ne", 0, 21.5645400⟩, ⟨10, "Ne", 1, 40.962960⟩,
   ⟨10, "Ne", 2, 63.42331⟩, ⟨10, "Ne", 3, 97.1900⟩, ⟨10, "Ne", 4, 126.247⟩,
   ⟨10, "Ne", 5, 157.9340⟩, ⟨10, "Ne", 6, 207.271⟩, ⟨10, "Ne", 7, 239.0969⟩,
   ⟨10, "Ne", 8, 1195.80779⟩, ⟨10, "Ne", 9, 1362.199100⟩, ⟨11, "Na", 0, 5.13907670⟩,
   ⟨11, "Na", 1, 47.28636⟩, ⟨11, "Na", 2, 71.6200⟩, ⟨11, "Na", 3, 98.936⟩,
   ⟨11, "Na", 4, 138.400⟩, ⟨11, "Na", 5, 172.228⟩, ⟨11, "Na", 6, 208.500⟩,
   ⟨11, "Na", 7, 264.192⟩, ⟨11, "Na", 8, 299.8600⟩, ⟨11, "Na", 9, 1465.134440⟩,
   ⟨11, "Na", 10, 1648.70200⟩, ⟨12, "Mg", 0, 7.6462350⟩, ⟨12, "Mg", 1, 15.0352700⟩,
   ⟨12, "Mg", 2, 80.14360⟩, ⟨12, "Mg", 3, 109.2654⟩, ⟨12, "Mg", 4, 141.335⟩,
   ⟨12, "Mg", 5, 186.760⟩, ⟨12, "Mg", 6, 225.015⟩, ⟨12, "Mg", 7, 265.924⟩,
   ⟨12, "Mg", 8, 327.985⟩, ⟨12, "Mg", 9, 367.5000⟩, ⟨12, "Mg", 10, 1761.80481⟩,
   ⟨12, "Mg", 11, 1962.66400⟩, ⟨13, "Al", 0, 5.9857684⟩, ⟨13, "Al", 1, 18.828550⟩,
   ⟨13, "Al", 2, 28.447641⟩, ⟨13, "Al", 3, 119.9924⟩, ⟨13, "Al", 4, 153.8252⟩,
   ⟨13, "Al", 5, 190.490⟩, ⟨13, "Al", 6, 241.760⟩, ⟨13, "Al", 7, 284.638⟩,
   ⟨13, "Al", 8, 330.212⟩, ⟨13, "Al", 9, 398.650⟩, ⟨13, "Al", 10, 442.0050⟩,
   ⟨13, "Al", 11, 2085.97693⟩, ⟨13, "Al", 12, 2304.14000⟩, ⟨14, "Si", 0, 8.151683⟩,
   ⟨14, "Si", 1, 16.345845⟩, ⟨14, "Si", 2, 33.493000⟩, ⟨14, "Si", 3, 45.141790⟩,
   ⟨14, "Si", 4, 166.7670⟩, ⟨14, "Si", 5, 205.267⟩, ⟨14, "Si", 6, 246.32⟩, ⟨14, "Si", 7, 303.66⟩,
   ⟨14, "Si", 8, 351.100⟩, ⟨14, "Si", 9, 401.380⟩, ⟨14, "Si", 10, 476.180⟩,
   ⟨14, "Si", 11, 523.4150⟩, ⟨14, "Si", 12, 2437.65804⟩, ⟨14, "Si", 13, 2673.17740⟩,
   ⟨15, "P", 0, 10.486686⟩, ⟨15, "P", 1, 19.769490⟩, ⟨15, "P", 2, 30.202640⟩,
   ⟨15, "P", 3, 51.44387⟩, ⟨15, "P", 4, 65.02511⟩, ⟨15, "P", 5, 220.4304⟩, ⟨15, "P", 6, 263.570⟩,
   ⟨15, "P", 7, 309.60⟩, ⟨15, "P", 8, 372.31⟩, ⟨15, "P", 9, 424.400⟩, ⟨15, "P", 10, 479.441⟩,
   ⟨15, "P", 11, 560.62⟩, ⟨15, "P", 12, 611.7400⟩, ⟨15, "P", 13, 2816.90867⟩,
   ⟨15, "P", 14, 3069.84140⟩, ⟨16, "S", 0, 10.36001⟩, ⟨16, "S", 1, 23.33788⟩,
   ⟨16, "S", 2, 34.856⟩, ⟨16, "S", 3, 47.222⟩, ⟨16, "S", 4, 72.59449⟩, ⟨16, "S", 5, 88.05292⟩,
   ⟨16, "S", 6, 280.9540⟩, ⟨16, "S", 7, 328.7900⟩, ⟨16, "S", 8, 379.84⟩, ⟨16, "S", 9, 447.74⟩,
   ⟨16, "S", 10, 504.55⟩, ⟨16, "S", 11, 564.407⟩, ⟨16, "S", 12, 651.96⟩, ⟨16, "S", 13, 706.9940⟩,
   ⟨16, "S", 14, 3223.78059⟩, ⟨16, "S", 15, 3494.18770⟩, ⟨17, "Cl", 0, 12.967632⟩,
   ⟨17, "Cl", 1, 23.81364⟩, ⟨17, "Cl", 2, 39.80⟩, ⟨17, "Cl", 3, 53.24⟩, ⟨17, "Cl", 4, 67.68⟩,
   ⟨17, "Cl", 5, 96.940⟩, ⟨17, "Cl", 6, 114.20130⟩, ⟨17, "Cl", 7, 348.3060⟩,
   ⟨17, "Cl", 8, 400.851⟩, ⟨17, "Cl", 9, 456.68⟩, ⟨17, "Cl", 10, 529.97⟩, ⟨17, "Cl", 11, 591.58⟩,
   ⟨17, "Cl", 12, 656.30⟩, ⟨17, "Cl", 13, 750.20⟩, ⟨17, "Cl", 14, 809.1980⟩,
   ⟨17, "Cl", 15, 3658.34362⟩, ⟨17, "Cl", 16, 3946.29080⟩, ⟨18, "Ar", 0, 15.75961120⟩,
   ⟨18, "Ar", 1, 27.62967⟩, ⟨18, "Ar", 2, 40.735⟩, ⟨18, "Ar", 3, 59.58⟩, ⟨18, "Ar", 4, 74.84⟩,
   ⟨18, "Ar", 5, 91.290⟩, ⟨18, "Ar", 6, 124.412⟩, ⟨18, "Ar", 7, 143.4567⟩,
   ⟨18, "Ar", 8, 422.598⟩, ⟨18, "Ar", 9, 479.76⟩, ⟨18, "Ar", 10, 540.43⟩, ⟨18, "Ar", 11, 618.95⟩,
   ⟨18, "Ar", 12, 685.47⟩, ⟨18, "Ar", 13, 755.13⟩, ⟨18, "Ar", 14, 855.47⟩,
   ⟨18, "Ar", 15, 918.3740⟩, ⟨18, "Ar", 16, 4120.66550⟩, ⟨18, "Ar", 17, 4426.22270⟩,
   ⟨36, "Kr", 0, 13.9996049⟩, ⟨36, "Kr", 1, 24.35984⟩, ⟨36, "Kr", 2, 35.838⟩,
   ⟨36, "Kr", 3, 50.85⟩, ⟨36, "Kr", 4, 64.69⟩, ⟨36, "Kr", 5, 78.49⟩, ⟨36, "Kr", 6, 109.130⟩,
   ⟨36, "Kr", 7, 125.8024⟩, ⟨36, "Kr", 8, 233.00⟩, ⟨36, "Kr", 9, 268⟩, ⟨36, "Kr", 10, 308⟩,
   ⟨36, "Kr", 11, 350⟩, ⟨36, "Kr", 12, 391⟩, ⟨36, "Kr", 13, 446⟩, ⟨36, "Kr", 14, 492⟩,
   ⟨36, "Kr", 15, 540⟩, ⟨36, "Kr", 16, 591⟩, ⟨36, "Kr", 17, 640⟩, ⟨36, "Kr", 18, 785⟩,
   ⟨36, "Kr", 19, 831.64⟩, ⟨36, "Kr", 20, 882.8⟩, ⟨36, "Kr", 21, 945⟩, ⟨36, "Kr", 22, 999.0⟩,
   ⟨36, "Kr", 23, 1042⟩, ⟨36, "Kr", 24, 1155.0⟩, ⟨36, "Kr", 25, 1205.233⟩,
   ⟨36, "Kr", 26, 2928.9⟩, ⟨36, "Kr", 27, 3072⟩, ⟨36, "Kr", 28, 3228⟩, ⟨36, "Kr", 29, 3380⟩,
   ⟨36, "Kr", 30, 3584⟩, ⟨36, "Kr", 31, 3752.0⟩, ⟨36, "Kr", 32, 3971⟩, ⟨36, "Kr", 33, 4109.0830⟩,
   ⟨36, "Kr", 34, 17296.4200⟩, ⟨36, "Kr", 35, 17936.208⟩, ⟨37, "Rb", 0, 4.1771280⟩,
   ⟨37, "Rb", 1, 27.289540⟩, ⟨37, "Rb", 2, 39.2470⟩, ⟨37, "Rb", 3, 52.20⟩, ⟨37, "Rb", 4, 68.40⟩,
   ⟨37, "Rb", 5, 82.9⟩, ⟨37, "Rb", 6, 98.670⟩, ⟨37, "Rb", 7, 132.80⟩, ⟨37, "Rb", 8, 150.630⟩,
   ⟨37, "Rb", 9, 277.12⟩, ⟨37, "Rb", 10, 313.1⟩, ⟨37, "Rb", 11, 356.0⟩, ⟨37, "Rb", 12, 400⟩,
   ⟨37, "Rb", 13, 443⟩, ⟨37, "Rb", 14, 502⟩, ⟨37, "Rb", 15, 550⟩, ⟨37, "Rb", 16, 601⟩,
   ⟨37, "Rb", 17, 654⟩, ⟨37, "Rb", 18, 706.0⟩, ⟨37, "Rb", 19, 857⟩, ⟨37, "Rb", 20, 905.3⟩,
   ⟨37, "Rb", 21, 958.9⟩, ⟨37, "Rb", 22, 1024⟩, ⟨37, "Rb", 23, 1080⟩, ⟨37, "Rb", 24, 1125⟩,
   ⟨37, "Rb", 25, 1242.5⟩, ⟨37, "Rb", 26, 1294.567⟩, ⟨37, "Rb", 27, 3133.3⟩,
   ⟨37, "Rb", 28, 3281⟩, ⟨37, "Rb", 29, 3442⟩, ⟨37, "Rb", 30, 3600⟩, ⟨37, "Rb", 31, 3815⟩,
   ⟨37, "Rb", 32, 3988⟩, ⟨37, "Rb", 33, 4214⟩, ⟨37, "Rb", 34, 4356.865⟩,
   ⟨37, "Rb", 35, 18305.8830⟩, ⟨37, "Rb", 36, 18965.510⟩, ⟨54, "Xe", 0, 12.1298431⟩,
   ⟨54, "Xe", 1, 20.9750⟩, ⟨54, "Xe", 2, 31.050⟩, ⟨54, "Xe", 3, 42.20⟩, ⟨54, "Xe", 4, 54.14⟩,
   ⟨54, "Xe", 5, 66.7030⟩, ⟨54, "Xe", 6, 91.60⟩, ⟨54, "Xe", 7, 105.9778⟩, ⟨54, "Xe", 8, 179.84⟩,
   ⟨54, "Xe", 9, 202.0⟩, ⟨54, "Xe", 10, 229.02⟩, ⟨54, "Xe", 11, 255.0⟩, ⟨54, "Xe", 12, 281⟩,
   ⟨54, "Xe", 13, 314⟩, ⟨54, "Xe", 14, 343⟩, ⟨54, "Xe", 15, 374⟩, ⟨54, "Xe", 16, 404⟩,
   ⟨54, "Xe", 17, 430⟩, ⟨54, "Xe", 18, 549⟩, ⟨54, "Xe", 19, 582⟩, ⟨54, "Xe", 20, 616⟩,
   ⟨54, "Xe", 21, 650⟩, ⟨54, "Xe", 22, 700⟩, ⟨54, "Xe", 23, 736⟩, ⟨54, "Xe", 24, 818⟩,
   ⟨54, "Xe", 25, 857.03⟩, ⟨54, "Xe", 26, 1493⟩, ⟨54, "Xe", 27, 1571⟩, ⟨54, "Xe", 28, 1653⟩,
   ⟨54, "Xe", 29, 1742⟩, ⟨54, "Xe", 30, 1826⟩, ⟨54, "Xe", 31, 1919⟩, ⟨54, "Xe", 32, 2023⟩,
   ⟨54, "Xe", 33, 2113⟩, ⟨54, "Xe", 34, 2209⟩, ⟨54, "Xe", 35, 2300⟩, ⟨54, "Xe", 36, 2556⟩,
   ⟨54, "Xe", 37, 2637⟩, ⟨54, "Xe", 38, 2726⟩, ⟨54, "Xe", 39, 2811⟩, ⟨54, "Xe", 40, 2975⟩,
   ⟨54, "Xe", 41, 3068⟩, ⟨54, "Xe", 42, 3243⟩, ⟨54, "Xe", 43, 3333.80⟩, ⟨54, "Xe", 44, 7660⟩,
   ⟨54, "Xe", 45, 7889⟩, ⟨54, "Xe", 46, 8144⟩, ⟨54, "Xe", 47, 8382⟩, ⟨54, "Xe", 48, 8971⟩,
   ⟨54, "Xe", 49, 9243⟩, ⟨54, "Xe", 50, 9581⟩, ⟨54, "Xe", 51, 9810.400⟩,
   ⟨54, "Xe", 52, 40271.722⟩, ⟨54, "Xe", 53, 41299.710⟩, ⟨86, "Rn", 0, 10.74850⟩,
   ⟨86, "Rn", 1, 21.4⟩, ⟨86, "Rn", 2, 29.4⟩, ⟨86, "Rn", 3, 36.9⟩, ⟨86, "Rn", 4, 52.9⟩,
   ⟨86, "Rn", 5, 64.0⟩, ⟨86, "Rn", 6, 88.0⟩, ⟨86, "Rn", 7, 102.0⟩, ⟨86, "Rn", 8, 154.0⟩,
   ⟨86, "Rn", 9, 173.9⟩, ⟨86, "Rn", 10, 195.0⟩, ⟨86, "Rn", 11, 218.0⟩, ⟨86, "Rn", 12, 240⟩,
   ⟨86, "Rn", 13, 264⟩, ⟨86, "Rn", 14, 293⟩, ⟨86, "Rn", 15, 317⟩, ⟨86, "Rn", 16, 342⟩,
   ⟨86, "Rn", 17, 367⟩, ⟨86, "Rn", 18, 488⟩, ⟨86, "Rn", 19, 520⟩, ⟨86, "Rn", 20, 550⟩,
   ⟨86, "Rn", 21, 580⟩, ⟨86, "Rn", 22, 640⟩, ⟨86, "Rn", 23, 680⟩, ⟨86, "Rn", 24, 760⟩,
   ⟨86, "Rn", 25, 800⟩, ⟨86, "Rn", 26, 850⟩, ⟨86, "Rn", 27, 920⟩, ⟨86, "Rn", 28, 980⟩,
   ⟨86, "Rn", 29, 1050⟩, ⟨86, "Rn", 30, 1120⟩, ⟨86, "Rn", 31, 1180⟩, ⟨86, "Rn", 32, 1250⟩,
   ⟨86, "Rn", 33, 1310⟩, ⟨86, "Rn", 34, 1390⟩, ⟨86, "Rn", 35, 1460⟩, ⟨86, "Rn", 36, 1520⟩,
   ⟨86, "Rn", 37, 1590⟩, ⟨86, "Rn", 38, 1660⟩, ⟨86, "Rn", 39, 1720⟩, ⟨86, "Rn", 40, 2033⟩,
   ⟨86, "Rn", 41, 2094⟩, ⟨86, "Rn", 42, 2158⟩, ⟨86, "Rn", 43, 2227⟩, ⟨86, "Rn", 44, 2293⟩,
   ⟨86, "Rn", 45, 2357⟩, ⟨86, "Rn", 46, 2467⟩, ⟨86, "Rn", 47, 2535⟩, ⟨86, "Rn", 48, 2606⟩,
   ⟨86, "Rn", 49, 2674⟩, ⟨86, "Rn", 50, 2944⟩, ⟨86, "Rn", 51, 3010⟩, ⟨86, "Rn", 52, 3082⟩,
   ⟨86, "Rn", 53, 3149⟩, ⟨86, "Rn", 54, 3433⟩, ⟨86, "Rn", 55, 3510⟩, ⟨86, "Rn", 56, 3699⟩,
   ⟨86, "Rn", 57, 3777⟩, ⟨86, "Rn", 58, 6169⟩, ⟨86, "Rn", 59, 6318⟩, ⟨86, "Rn", 60, 6476⟩,
   ⟨86, "Rn", 61, 6646⟩, ⟨86, "Rn", 62, 6807⟩, ⟨86, "Rn", 63, 6964⟩, ⟨86, "Rn", 64, 7283⟩,
   ⟨86, "Rn", 65, 7450⟩, ⟨86, "Rn", 66, 7630⟩, ⟨86, "Rn", 67, 7800⟩, ⟨86, "Rn", 68, 8260⟩,
   ⟨86, "Rn", 69, 8410⟩, ⟨86, "Rn", 70, 8570⟩, ⟨86, "Rn", 71, 8710⟩, ⟨86, "Rn", 72, 9610⟩,
   ⟨86, "Rn", 73, 9780⟩, ⟨86, "Rn", 74, 10120⟩, ⟨86, "Rn", 75, 10290⟩, ⟨86, "Rn", 76, 21770⟩,
   ⟨86, "Rn", 77, 22160⟩, ⟨86, "Rn", 78, 22600⟩, ⟨86, "Rn", 79, 23000⟩, ⟨86, "Rn", 80, 26310⟩,
   ⟨86, "Rn", 81, 26830⟩, ⟨86, "Rn", 82, 27490⟩, ⟨86, "Rn", 83, 27903.10⟩,
   ⟨86, "Rn", 84, 110842.00⟩, ⟨86, "Rn", 85, 112843.7⟩]

/-- The loop over `ion_level`: entry `ion_level` of the list of tuples (an `IndexError` if there is
none), assertion on the level, energy. read_atomic_data.py:84-89 -/
def energyAt (l : List Row) (i : ℕ) : Except PyErr ℚ :=
  match l[i]? with
  | none => .error (.indexError "list index out of range")
  | some r => if i = r.charge then .ok r.energy else .error (.assertionError "ion_level")

/-- `read_ionization_energies`: `none` stands for Python's `None`. The energies are left in eV
(the code multiplies by `e`, see `energiesJ`). read_atomic_data.py:43-91 -/
def readEnergies (data : List Row) (element : String) : Except PyErr (Option (List ℚ)) :=
  match data.filter (fun r => r.symbol = element) with
  | [] => .ok none
  | r :: l =>
    if r.atomicNumber = 0 then .error (.assertionError "atomic_number > 0")
    else do
      let en ← (List.range r.atomicNumber).mapM (energyAt (r :: l))
      return some en

/-- The module-level dictionary `cached_ionization_energies`. read_atomic_data.py:12 -/
abbrev Cache := String → Option (Option (List ℚ))

/-- `get_ionization_energies`: look up the cache, else read and record.
read_atomic_data.py:34-41 -/
def getEnergies (data : List Row) (cache : Cache) (element : String) :
    Except PyErr (Option (List ℚ) × Cache) :=
  match cache element with
  | some en => .ok (en, cache)
  | none => do
    let en ← readEnergies data element
    return (en, Function.update cache element (some en))

end Fbpic.Adk
