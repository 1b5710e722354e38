import Mathlib.Data.Rat.Cast.Order
import Mathlib.Algebra.BigOperators.Group.Finset.Basic

/-!
# Frequency estimator: model

Models `FreqEstimator` (`roc_audio/freq_estimator.cpp`), which turns measured latencies into the factor by which the
resampler changes the rate: measurements go through one or two decimating filters into a
proportional-integral controller.

Numbers of type `double` are rational numbers here: rounding is not modelled, nor the conversion of the result to
`float` (`freq_estimator.cpp:101`). `samples_counter_` is a natural number (it would wrap after 2^64 updates).
-/

namespace Verif.FreqEstimator

/-- `fe_decim_len`: `freq_estimator_decim.h:27`. -/
def len : Nat := 256

/-- `fe_decim_h`, multiplied by 10^14: `freq_estimator_decim.cpp:13-78`. -/
def table : List Int :=
  [
    2171816595, 155161134900, 54921896660, 65852463010, 75560598630, 85570523520, 95660774970, 105746265000,
    115604209700, 125121744300, 134058238500, 142282107800, 149541371500, 155708100600, 160538463400,
    163914193400, 165614276200, 165562669300, 163576775200, 159616954600, 153552962000, 145402399400,
    135090644500, 122694892300, 108225399200, 91823691040, 73582498590, 53726416080, 32430229480, 9991019033,
    -13357294670, -37240647360, -61391340570, -85383473200, -108895520700, -131468323500, -152760313400,
    -172295502900, -189745926800, -204686541100, -216823117800, -225778622600, -231319200200, -233131833400,
    -231053261100, -224888464400, -214630132500, -200227880900, -181782164100, -159329269100, -133087707200,
    -103288702700, -70385047000, -34742080610, 3207824193, 43011215170, 83869672380, 125196995200,
    166565354400, 206882995600, 245723826800, 282206106900, 315631157700, 345301209000, 370490085300,
    390590564300, 404962524800, 413125474000, 414585275600, 409017549800, 396112771700, 375756318700,
    347864022500, 312552950300, 269993557600, 220556906400, 164664385400, 102941982900, 36070705390,
    -35077784560, -109593465500, -186371675200, -264318310700, -342148239700, -418635644000, -492368917900,
    -562029844100, -626185862300, -683460990000, -732478173400, -771940778900, -800557620800, -817183405200,
    -820726901300, -810236856300, -784871634100, -744002964300, -687113497400, -613892683800, -524176238100,
    -418050633700, -295762810900, -157801155000, -4807108053, 162348442200, 342621817300, 534740136900,
    737300561700, 948741287000, 1167352311000, 1391246822000, 1618501171000, 1847111061000, 2074959502000,
    2299895883000, 2519862913000, 2732633427000, 2936225012000, 3128561750000, 3307762742000, 3471996263000,
    3619609028000, 3749086335000, 3859099001000, 3948510438000, 4016397893000, 4062053561000, 4085000232000,
    4085000232000, 4062053561000, 4016397893000, 3948510438000, 3859099001000, 3749086335000, 3619609028000,
    3471996263000, 3307762742000, 3128561750000, 2936225012000, 2732633427000, 2519862913000, 2299895883000,
    2074959502000, 1847111061000, 1618501171000, 1391246822000, 1167352311000, 948741287000, 737300561700,
    534740136900, 342621817300, 162348442200, -4807108053, -157801155000, -295762810900, -418050633700,
    -524176238100, -613892683800, -687113497400, -744002964300, -784871634100, -810236856300, -820726901300,
    -817183405200, -800557620800, -771940778900, -732478173400, -683460990000, -626185862300, -562029844100,
    -492368917900, -418635644000, -342148239700, -264318310700, -186371675200, -109593465500, -35077784560,
    36070705390, 102941982900, 164664385400, 220556906400, 269993557600, 312552950300, 347864022500,
    375756318700, 396112771700, 409017549800, 414585275600, 413125474000, 404962524800, 390590564300,
    370490085300, 345301209000, 315631157700, 282206106900, 245723826800, 206882995600, 166565354400,
    125196995200, 83869672380, 43011215170, 3207824193, -34742080610, -70385047000, -103288702700,
    -133087707200, -159329269100, -181782164100, -200227880900, -214630132500, -224888464400, -231053261100,
    -233131833400, -231319200200, -225778622600, -216823117800, -204686541100, -189745926800, -172295502900,
    -152760313400, -131468323500, -108895520700, -85383473200, -61391340570, -37240647360, -13357294670,
    9991019033, 32430229480, 53726416080, 73582498590, 91823691040, 108225399200, 122694892300, 135090644500,
    145402399400, 153552962000, 159616954600, 163576775200, 165562669300, 165614276200, 163914193400,
    160538463400, 155708100600, 149541371500, 142282107800, 134058238500, 125121744300, 115604209700,
    105746265000, 95660774970, 85570523520, 75560598630, 65852463010, 54921896660, 155161134900, 2171816595]

/-- `fe_decim_h`: `freq_estimator_decim.cpp:13-78`. -/
def feH (j : Nat) : ℚ := (table.getD j 0 : ℚ) / 100000000000000

/-- `fe_decim_h_gain`: `freq_estimator_decim.cpp:11`. -/
def feGain : ℚ := 1041106363770361 / 1000000000000000

/-- `FreqEstimatorConfig`: `freq_estimator.h:34-52`, and the filter. -/
structure Cfg where
  P : ℚ
  I : ℚ
  f1 : Nat
  f2 : Nat
  h : Nat → ℚ
  gain : ℚ

/-- `make_config(FreqEstimatorProfile_Responsive)`: `freq_estimator.cpp:23-28`. -/
def responsive (h : Nat → ℚ) (gain : ℚ) : Cfg := ⟨1 / 1000000, 1 / 10000000000, 10, 0, h, gain⟩

/-- `make_config(FreqEstimatorProfile_Gradual)`: `freq_estimator.cpp:30-35`. -/
def gradual (h : Nat → ℚ) (gain : ℚ) : Cfg := ⟨1 / 1000000, 5 / 1000000000, 10, 10, h, gain⟩

/-- Fields of `FreqEstimator`: `freq_estimator.h:82-94`. -/
structure St where
  target : ℚ
  buf1 : Nat → ℚ
  ind1 : Nat
  buf2 : Nat → ℚ
  ind2 : Nat
  counter : Nat
  accum : ℚ
  coeff : ℚ

/-- The constructor: `freq_estimator.cpp:64-98`. -/
def St.init (target : ℚ) : St := ⟨target, fun _ => target, 0, fun _ => target, 0, 0, 0, 1⟩

/-- Write to an array. (Part of the model of roc_audio/freq_estimator.cpp:19-154.) -/
def put (b : Nat → ℚ) (i : Nat) (v : ℚ) : Nat → ℚ := fun k => if k = i then v else b k

/-- The loop of `dot_prod`: `freq_estimator.cpp:55-57`. The first argument is the number of remaining iterations;
`(i - 1) & len_mask` is written with 255 added. -/
def dotLoop (h b : Nat → ℚ) : Nat → Nat → Nat → ℚ → ℚ
  | 0, _, _, acc => acc
  | r + 1, i, j, acc => dotLoop h b r ((i + 255) % len) (j + 1) (acc + h j * b i)

/-- `dot_prod`: `freq_estimator.cpp:48-60`. -/
def dotProd (h b : Nat → ℚ) (i : Nat) : ℚ := dotLoop h b len i 0 0

/-- `run_decimators_`: `freq_estimator.cpp:112-147`. The second component is `filtered`, if the result is true. -/
def St.decimate (c : Cfg) (s : St) (cur : ℚ) : St × Option ℚ :=
  let n := s.counter + 1
  let b1 := put s.buf1 s.ind1 cur
  if n % c.f1 = 0 then
    let b2 := put s.buf2 s.ind2 (dotProd c.h b1 s.ind1 / c.gain)
    if c.f2 = 0 then
      ({ s with counter := n, buf1 := b1, buf2 := b2 }, some (b2 s.ind2))
    else if n % (c.f1 * c.f2) = 0 then
      ({ s with counter := 0, buf1 := b1, buf2 := b2 }, some (dotProd c.h b2 s.ind2 / c.gain))
    else
      ({ s with counter := n, buf1 := b1, buf2 := b2, ind2 := (s.ind2 + 1) % len, ind1 := (s.ind1 + 1) % len }, none)
  else
    ({ s with counter := n, buf1 := b1, ind1 := (s.ind1 + 1) % len }, none)

/-- `run_controller_`: `freq_estimator.cpp:149-154`. -/
def St.control (c : Cfg) (s : St) (cur : ℚ) : St :=
  let error := cur - s.target
  { s with accum := s.accum + error, coeff := 1 + c.P * error + c.I * (s.accum + error) }

/-- `update`: `freq_estimator.cpp:104-110`. -/
def St.update (c : Cfg) (s : St) (cur : ℚ) : St :=
  match s.decimate c cur with
  | (s', none) => s'
  | (s', some filtered) => s'.control c filtered

/-- A history of updates. (Part of the model of roc_audio/freq_estimator.cpp:19-154.) -/
def run (c : Cfg) (s : St) (ms : List ℚ) : St := ms.foldl (fun s m => s.update c m) s

end Verif.FreqEstimator
