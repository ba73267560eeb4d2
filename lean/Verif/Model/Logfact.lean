import Verif.Model.XF
import Mathlib.Analysis.SpecialFunctions.Log.Basic
/-!
# Model of src/logfactorial/logfactorial.c and src/logfactorial/logfactorial_ufunc.c

Exact real arithmetic.  The decimal literals of the table and of the constant are taken at their
decimal value (the compiler's rounding to double is not modelled), the conversion of `k` to
double is exact.
-/
namespace Ufunclab.Logfact

/-- The table `logfact`, logfactorial.c lines 9-136: the decimal literals times `10^17`. -/
def table : List Nat :=
  [0, 0, 69314718055994529, 179175946922805500,
   317805383034794580, 478749174278204580, 657925121201010120, 852516136106541470,
   1060460290274525100, 1280182748008146900, 1510441257307551600, 1750230784587388700,
   1998721449566188500, 2255216385312342500, 2519122118273868000, 2789927138384089000,
   3067186010608067200, 3350507345013689100, 3639544520803305300, 3933988418719949500,
   4233561646075348500, 4538013889847690800, 4847118135183522700, 5160667556776437700,
   5478472939811231900, 5800360522298051800, 6126170176100200100, 6455753862700633800,
   6788974313718154000, 7125703896716801500, 7465823634883015800, 7809222355331530700,
   8155795945611504300, 8505446701758151600, 8858082754219768200, 9213617560368709300,
   9571969454214320200, 9933061245478742800, 10296819861451381000, 10663176026064346000,
   11032063971475739000, 11403421178146171000, 11777188139974507000, 12153308151543864000,
   12531727114935690000, 12912393363912722000, 13295257503561632000, 13680272263732635000,
   14067392364823425000, 14456574394634490000, 14847776695177302000, 15240959258449735000,
   15636083630307880000, 16033112821663090000, 16432011226319517000, 16832744544842765000,
   17235279713916279000, 17639584840699735000, 18045629141754378000, 18453382886144948000,
   18862817342367160000, 19273904728784490000, 19686618167289001000, 20100931639928152000,
   20516819948264120000, 20934258675253685000, 21353224149456327000, 21773693411395422000,
   22195644181913033000, 22619054832372760000, 23043904356577696000, 23470172344281826000,
   23897838956183432000, 24326884900298271000, 24757291409618688000, 25189040220972319000,
   25622113555000954000, 26056494097186322000, 26492164979855278000, 26929109765101981000,
   27367312428569369000, 27806757344036612000, 28247429268763040000, 28689313329542699000,
   29132395009427029000, 29576660135076065000, 30022094864701415000, 30468685676566872000,
   30916419358014690000, 31365282994987905000, 31815263962020930000, 32266349912672615000,
   32718528770377520000, 33171788719692847000, 33626118197919845000, 34081505887079902000,
   34537940706226686000, 34995411804077025000, 35453908551944079000, 35913420536957540000,
   36373937555556347000, 36835449607240474000, 37297946888568902000, 37761419787391867000,
   38225858877306001000, 38691254912321756000, 39157598821732961000, 39624881705179155000,
   40093094827891576000, 40562229616114490000, 41032277652693733000, 41503230672824964000,
   41975080559954472000, 42447819341825709000, 42921439186665157000, 43395932399501481000,
   43871291418612117000, 44347508812091894000, 44824577274538461000, 45302489623849613000,
   45781238798127816000, 46260817852687489000, 46741219957160820000, 47222438392698058000,
   47704466549258564000, 48187297922988796000]

/-- The entry read by `logfact[k]`; `none` is a read outside the array. -/
noncomputable def lookup (k : Int) : Option ℝ :=
  if k < 0 then none else (table[k.toNat]?).map fun v => (v : ℝ) / 10 ^ 17

/-- `halfln2pi`, line 144. -/
noncomputable def halfln2pi : ℝ := 0.9189385332046728

/-- `logfactorial`, logfactorial.c lines 142-159. -/
noncomputable def logfactorial (k : Int) : Option ℝ :=
  if k < (table.length : Int) then lookup k
  else
    let kf : ℝ := (k : ℝ)
    some ((kf + 0.5) * Real.log kf - kf + (halfln2pi + (1.0 / kf) * (1 / 12.0 - 1 / (360.0 * kf * kf))))

/-- The body of both loops, logfactorial_ufunc.c lines 38-46 and 59-65: NaN for negative input. -/
noncomputable def ufunc (x : Int) : Option (XF ℝ) :=
  if x < 0 then some .nan else (logfactorial x).map .fin

end Ufunclab.Logfact
