import Verif.Model.ColumnQuery
import Verif.Model.StatsAny
/-!
# `Column.statistics`, `tablite/base.py:1007-1024`
-/

namespace Tablite

/-- `Column.statistics`, base.py:1007-1024: the summary of the histogram.  `srt` is numpy's sort of a page (no result: TypeError) and `same` its equality, as in
`histogram`; `clk` and `fl` are the clock and the rounding of `summaryStatistics`. -/
def columnStatistics (clk : SClock) (fl : Rat → Rat) (srt : List StVal → Option (List StVal)) (same : StVal → StVal → Bool) (pages : Pages StVal) :
    Except Err (Option SumOut) :=
  summaryStatistics clk fl (histogram srt same pages)

end Tablite
