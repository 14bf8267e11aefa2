import Verif.Go.Regexp
import Verif.Model.Route
/-!
# The engine of route paths (route.go:35-44, config.go:125-134)
-/
namespace J8a
open Go

/-- `regexp.Compile` and `MatchString`. `X` answers for the patterns that use syntax which is not modelled. -/
def goRegexp (X : Regexp) : Regexp where
  compiles := fun p => match parseRe p with
    | .ok _ => true
    | .bad => false
    | .other => X.compiles p
  isMatch := fun p t => match parseRe p with
    | .ok r => r.matchString t
    | .bad => false
    | .other => X.isMatch p t

end J8a
