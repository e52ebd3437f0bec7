import Verif.Conform.Setup

/-!
The unit tests of the operators, `/repo/uttut/pipeline/ops/**/tests/*.py`: every assertion, read off the test
files, as a check on the model. Tests of the model, not proofs about it. `#guard` evaluates the check when
the file is built and fails the build if it does not hold.
-/

namespace Uttut
namespace Conform
open Spec

set_option maxRecDepth 100000

/-! `/repo/uttut/pipeline/ops/pattern_recognizers/tests/test_float_token.py` -/

-- test_equal
#guard same (create env "FloatToken" [] []) (create env "FloatToken" [] [])

-- test_inverse_transform_labels
#guard bwdIs (create env "FloatToken" [] []) (.str "12.3 2.7 0.7777".toList) [1, 1, 1, 1, 1, 1, 1, 0, 2, 2, 2, 2, 2, 2, 2, 0, 3, 3, 3, 3, 3, 3, 3] [1, 1, 1, 1, 0, 2, 2, 2, 0, 3, 3, 3, 3, 3, 3]
#guard bwdIs (create env "FloatToken" [] []) (.str "１２.３ ２.７ ０.７７７７".toList) [1, 1, 1, 1, 1, 1, 1, 0, 2, 2, 2, 2, 2, 2, 2, 0, 3, 3, 3, 3, 3, 3, 3] [1, 1, 1, 1, 0, 2, 2, 2, 0, 3, 3, 3, 3, 3, 3]
#guard bwdIs (create env "FloatToken" [] []) (.str "1 2.7 1000".toList) [1, 0, 2, 2, 2, 2, 2, 2, 2, 0, 3, 3, 3, 3] [1, 0, 2, 2, 2, 0, 3, 3, 3, 3]
#guard bwdIs (create env "FloatToken" [] []) (.str "１ ２.７ １０００".toList) [1, 0, 2, 2, 2, 2, 2, 2, 2, 0, 3, 3, 3, 3] [1, 0, 2, 2, 2, 0, 3, 3, 3, 3]
#guard bwdIs (create env "FloatToken" [] []) (.str "12.7.7".toList) [1, 2, 3, 4, 5, 6] [1, 2, 3, 4, 5, 6]
#guard bwdIs (create env "FloatToken" [] []) (.str "１２.７.７".toList) [1, 2, 3, 4, 5, 6] [1, 2, 3, 4, 5, 6]
#guard bwdIs (create env "FloatToken" [] []) (.str "9.99".toList) [0, 0, 0, 0, 0, 0, 0] [0, 0, 0, 0]
#guard bwdIs (create env "FloatToken" [] []) (.str "０１２３４５６７８.９".toList) [0, 0, 0, 0, 0, 0, 0] [0, 0, 0, 0, 0, 0, 0, 0, 0, 0, 0]
#guard bwdIs (create env "FloatToken" [] []) (.str "奇利利有12.3億元".toList) [1, 1, 1, 2, 3, 3, 3, 3, 3, 3, 3, 3, 3] [1, 1, 1, 2, 3, 3, 3, 3, 3, 3]
#guard bwdIs (create env "FloatToken" [] []) (.str "奇利利有１２.３億元".toList) [1, 1, 1, 2, 3, 3, 3, 3, 3, 3, 3, 3, 3] [1, 1, 1, 2, 3, 3, 3, 3, 3, 3]
#guard bwdIs (create env "FloatToken" [] []) (.str "１2.３".toList) [1, 1, 1, 1, 1, 1, 1] [1, 1, 1, 1]
#guard bwdIs (create env "FloatToken" [] []) (.str "GB亂入".toList) [1, 1, 2, 2] [1, 1, 2, 2]

-- test_transform
#guard outIs (create env "FloatToken" [] []) (.str "12.3 2.7 0.7777".toList) (.str "_float_ _float_ _float_".toList)
#guard outIs (create env "FloatToken" [] []) (.str "１２.３ ２.７ ０.７７７７".toList) (.str "_float_ _float_ _float_".toList)
#guard outIs (create env "FloatToken" [] []) (.str "1 2.7 1000".toList) (.str "1 _float_ 1000".toList)
#guard outIs (create env "FloatToken" [] []) (.str "１ ２.７ １０００".toList) (.str "１ _float_ １０００".toList)
#guard outIs (create env "FloatToken" [] []) (.str "12.7.7".toList) (.str "12.7.7".toList)
#guard outIs (create env "FloatToken" [] []) (.str "１２.７.７".toList) (.str "１２.７.７".toList)
#guard outIs (create env "FloatToken" [] []) (.str "9.99".toList) (.str "_float_".toList)
#guard outIs (create env "FloatToken" [] []) (.str "０１２３４５６７８.９".toList) (.str "_float_".toList)
#guard outIs (create env "FloatToken" [] []) (.str "奇利利有12.3億元".toList) (.str "奇利利有_float_億元".toList)
#guard outIs (create env "FloatToken" [] []) (.str "奇利利有１２.３億元".toList) (.str "奇利利有_float_億元".toList)
#guard outIs (create env "FloatToken" [] []) (.str "１2.３".toList) (.str "_float_".toList)
#guard outIs (create env "FloatToken" [] []) (.str "GB亂入".toList) (.str "GB亂入".toList)

-- test_transform_labels
#guard fwdIs (create env "FloatToken" [] []) (.str "12.3 2.7 0.7777".toList) [1, 1, 1, 1, 0, 2, 2, 2, 0, 3, 3, 3, 3, 3, 3] [1, 1, 1, 1, 1, 1, 1, 0, 2, 2, 2, 2, 2, 2, 2, 0, 3, 3, 3, 3, 3, 3, 3]
#guard fwdIs (create env "FloatToken" [] []) (.str "１２.３ ２.７ ０.７７７７".toList) [1, 1, 1, 1, 0, 2, 2, 2, 0, 3, 3, 3, 3, 3, 3] [1, 1, 1, 1, 1, 1, 1, 0, 2, 2, 2, 2, 2, 2, 2, 0, 3, 3, 3, 3, 3, 3, 3]
#guard fwdIs (create env "FloatToken" [] []) (.str "1 2.7 1000".toList) [1, 0, 2, 2, 2, 0, 3, 3, 3, 3] [1, 0, 2, 2, 2, 2, 2, 2, 2, 0, 3, 3, 3, 3]
#guard fwdIs (create env "FloatToken" [] []) (.str "１ ２.７ １０００".toList) [1, 0, 2, 2, 2, 0, 3, 3, 3, 3] [1, 0, 2, 2, 2, 2, 2, 2, 2, 0, 3, 3, 3, 3]
#guard fwdIs (create env "FloatToken" [] []) (.str "12.7.7".toList) [1, 2, 3, 4, 5, 6] [1, 2, 3, 4, 5, 6]
#guard fwdIs (create env "FloatToken" [] []) (.str "１２.７.７".toList) [1, 2, 3, 4, 5, 6] [1, 2, 3, 4, 5, 6]
#guard fwdIs (create env "FloatToken" [] []) (.str "9.99".toList) [0, 0, 0, 0] [0, 0, 0, 0, 0, 0, 0]
#guard fwdIs (create env "FloatToken" [] []) (.str "０１２３４５６７８.９".toList) [0, 0, 0, 0, 0, 0, 0, 0, 0, 0, 0] [0, 0, 0, 0, 0, 0, 0]
#guard fwdIs (create env "FloatToken" [] []) (.str "奇利利有12.3億元".toList) [1, 1, 1, 2, 3, 3, 3, 3, 3, 3] [1, 1, 1, 2, 3, 3, 3, 3, 3, 3, 3, 3, 3]
#guard fwdIs (create env "FloatToken" [] []) (.str "奇利利有１２.３億元".toList) [1, 1, 1, 2, 3, 3, 3, 3, 3, 3] [1, 1, 1, 2, 3, 3, 3, 3, 3, 3, 3, 3, 3]
#guard fwdIs (create env "FloatToken" [] []) (.str "１2.３".toList) [1, 1, 1, 1] [1, 1, 1, 1, 1, 1, 1]
#guard fwdIs (create env "FloatToken" [] []) (.str "GB亂入".toList) [1, 1, 2, 2] [1, 1, 2, 2]

/-! `/repo/uttut/pipeline/ops/pattern_recognizers/tests/test_float_token_with_space.py` -/

-- test_equal
#guard same (create env "FloatTokenWithSpace" [] []) (create env "FloatTokenWithSpace" [] [])

-- test_inverse_transform_labels
#guard bwdIs (create env "FloatTokenWithSpace" [] []) (.str "12.3 2.7 0.7777".toList) [0, 1, 1, 1, 1, 1, 1, 1, 0, 0, 0, 2, 2, 2, 2, 2, 2, 2, 0, 0, 0, 3, 3, 3, 3, 3, 3, 3, 0] [1, 1, 1, 1, 0, 2, 2, 2, 0, 3, 3, 3, 3, 3, 3]
#guard bwdIs (create env "FloatTokenWithSpace" [] []) (.str "１２.３ ２.７ ０.７７７７".toList) [0, 1, 1, 1, 1, 1, 1, 1, 0, 0, 0, 2, 2, 2, 2, 2, 2, 2, 0, 0, 0, 3, 3, 3, 3, 3, 3, 3, 0] [1, 1, 1, 1, 0, 2, 2, 2, 0, 3, 3, 3, 3, 3, 3]
#guard bwdIs (create env "FloatTokenWithSpace" [] []) (.str "1 2.7 1000".toList) [1, 0, 0, 2, 2, 2, 2, 2, 2, 2, 0, 0, 3, 3, 3, 3] [1, 0, 2, 2, 2, 0, 3, 3, 3, 3]
#guard bwdIs (create env "FloatTokenWithSpace" [] []) (.str "１ ２.７ １０００".toList) [1, 0, 0, 2, 2, 2, 2, 2, 2, 2, 0, 0, 3, 3, 3, 3] [1, 0, 2, 2, 2, 0, 3, 3, 3, 3]
#guard bwdIs (create env "FloatTokenWithSpace" [] []) (.str "12.7.7".toList) [1, 2, 3, 4, 5, 6] [1, 2, 3, 4, 5, 6]
#guard bwdIs (create env "FloatTokenWithSpace" [] []) (.str "１２.７.７".toList) [1, 2, 3, 4, 5, 6] [1, 2, 3, 4, 5, 6]
#guard bwdIs (create env "FloatTokenWithSpace" [] []) (.str "9.99".toList) [0, 0, 0, 0, 0, 0, 0, 0, 0] [0, 0, 0, 0]
#guard bwdIs (create env "FloatTokenWithSpace" [] []) (.str "０１２３４５６７８.９".toList) [0, 0, 0, 0, 0, 0, 0, 0, 0] [0, 0, 0, 0, 0, 0, 0, 0, 0, 0, 0]
#guard bwdIs (create env "FloatTokenWithSpace" [] []) (.str "奇利利有12.3億元".toList) [1, 1, 1, 2, 0, 3, 3, 3, 3, 3, 3, 3, 0, 3, 3] [1, 1, 1, 2, 3, 3, 3, 3, 3, 3]
#guard bwdIs (create env "FloatTokenWithSpace" [] []) (.str "奇利利有１２.３億元".toList) [1, 1, 1, 2, 0, 3, 3, 3, 3, 3, 3, 3, 0, 3, 3] [1, 1, 1, 2, 3, 3, 3, 3, 3, 3]
#guard bwdIs (create env "FloatTokenWithSpace" [] []) (.str "１2.３".toList) [0, 1, 1, 1, 1, 1, 1, 1, 0] [1, 1, 1, 1]
#guard bwdIs (create env "FloatTokenWithSpace" [] []) (.str "GB亂入".toList) [1, 1, 2, 2] [1, 1, 2, 2]

-- test_transform
#guard outIs (create env "FloatTokenWithSpace" [] []) (.str "12.3 2.7 0.7777".toList) (.str " _float_   _float_   _float_ ".toList)
#guard outIs (create env "FloatTokenWithSpace" [] []) (.str "１２.３ ２.７ ０.７７７７".toList) (.str " _float_   _float_   _float_ ".toList)
#guard outIs (create env "FloatTokenWithSpace" [] []) (.str "1 2.7 1000".toList) (.str "1  _float_  1000".toList)
#guard outIs (create env "FloatTokenWithSpace" [] []) (.str "１ ２.７ １０００".toList) (.str "１  _float_  １０００".toList)
#guard outIs (create env "FloatTokenWithSpace" [] []) (.str "12.7.7".toList) (.str "12.7.7".toList)
#guard outIs (create env "FloatTokenWithSpace" [] []) (.str "１２.７.７".toList) (.str "１２.７.７".toList)
#guard outIs (create env "FloatTokenWithSpace" [] []) (.str "9.99".toList) (.str " _float_ ".toList)
#guard outIs (create env "FloatTokenWithSpace" [] []) (.str "０１２３４５６７８.９".toList) (.str " _float_ ".toList)
#guard outIs (create env "FloatTokenWithSpace" [] []) (.str "奇利利有12.3億元".toList) (.str "奇利利有 _float_ 億元".toList)
#guard outIs (create env "FloatTokenWithSpace" [] []) (.str "奇利利有１２.３億元".toList) (.str "奇利利有 _float_ 億元".toList)
#guard outIs (create env "FloatTokenWithSpace" [] []) (.str "１2.３".toList) (.str " _float_ ".toList)
#guard outIs (create env "FloatTokenWithSpace" [] []) (.str "GB亂入".toList) (.str "GB亂入".toList)

-- test_transform_labels
#guard fwdIs (create env "FloatTokenWithSpace" [] []) (.str "12.3 2.7 0.7777".toList) [1, 1, 1, 1, 0, 2, 2, 2, 0, 3, 3, 3, 3, 3, 3] [0, 1, 1, 1, 1, 1, 1, 1, 0, 0, 0, 2, 2, 2, 2, 2, 2, 2, 0, 0, 0, 3, 3, 3, 3, 3, 3, 3, 0]
#guard fwdIs (create env "FloatTokenWithSpace" [] []) (.str "１２.３ ２.７ ０.７７７７".toList) [1, 1, 1, 1, 0, 2, 2, 2, 0, 3, 3, 3, 3, 3, 3] [0, 1, 1, 1, 1, 1, 1, 1, 0, 0, 0, 2, 2, 2, 2, 2, 2, 2, 0, 0, 0, 3, 3, 3, 3, 3, 3, 3, 0]
#guard fwdIs (create env "FloatTokenWithSpace" [] []) (.str "1 2.7 1000".toList) [1, 0, 2, 2, 2, 0, 3, 3, 3, 3] [1, 0, 0, 2, 2, 2, 2, 2, 2, 2, 0, 0, 3, 3, 3, 3]
#guard fwdIs (create env "FloatTokenWithSpace" [] []) (.str "１ ２.７ １０００".toList) [1, 0, 2, 2, 2, 0, 3, 3, 3, 3] [1, 0, 0, 2, 2, 2, 2, 2, 2, 2, 0, 0, 3, 3, 3, 3]
#guard fwdIs (create env "FloatTokenWithSpace" [] []) (.str "12.7.7".toList) [1, 2, 3, 4, 5, 6] [1, 2, 3, 4, 5, 6]
#guard fwdIs (create env "FloatTokenWithSpace" [] []) (.str "１２.７.７".toList) [1, 2, 3, 4, 5, 6] [1, 2, 3, 4, 5, 6]
#guard fwdIs (create env "FloatTokenWithSpace" [] []) (.str "9.99".toList) [0, 0, 0, 0] [0, 0, 0, 0, 0, 0, 0, 0, 0]
#guard fwdIs (create env "FloatTokenWithSpace" [] []) (.str "０１２３４５６７８.９".toList) [0, 0, 0, 0, 0, 0, 0, 0, 0, 0, 0] [0, 0, 0, 0, 0, 0, 0, 0, 0]
#guard fwdIs (create env "FloatTokenWithSpace" [] []) (.str "奇利利有12.3億元".toList) [1, 1, 1, 2, 3, 3, 3, 3, 3, 3] [1, 1, 1, 2, 0, 3, 3, 3, 3, 3, 3, 3, 0, 3, 3]
#guard fwdIs (create env "FloatTokenWithSpace" [] []) (.str "奇利利有１２.３億元".toList) [1, 1, 1, 2, 3, 3, 3, 3, 3, 3] [1, 1, 1, 2, 0, 3, 3, 3, 3, 3, 3, 3, 0, 3, 3]
#guard fwdIs (create env "FloatTokenWithSpace" [] []) (.str "１2.３".toList) [1, 1, 1, 1] [0, 1, 1, 1, 1, 1, 1, 1, 0]
#guard fwdIs (create env "FloatTokenWithSpace" [] []) (.str "GB亂入".toList) [1, 1, 2, 2] [1, 1, 2, 2]

/-! `/repo/uttut/pipeline/ops/pattern_recognizers/tests/test_int_token.py` -/

-- test_equal
#guard same (create env "IntToken" [] []) (create env "IntToken" [] [])

-- test_inverse_transform_labels
#guard bwdIs (create env "IntToken" [] []) (.str "12 24 3666".toList) [1, 1, 1, 1, 1, 0, 2, 2, 2, 2, 2, 0, 3, 3, 3, 3, 3] [1, 1, 0, 2, 2, 0, 3, 3, 3, 3]
#guard bwdIs (create env "IntToken" [] []) (.str "１２ ２４ ３６６６".toList) [1, 1, 1, 1, 1, 0, 2, 2, 2, 2, 2, 0, 3, 3, 3, 3, 3] [1, 1, 0, 2, 2, 0, 3, 3, 3, 3]
#guard bwdIs (create env "IntToken" [] []) (.str "12.3 1000 3.5".toList) [1, 1, 1, 1, 0, 2, 2, 2, 2, 2, 0, 3, 3, 3] [1, 1, 1, 1, 0, 2, 2, 2, 2, 0, 3, 3, 3]
#guard bwdIs (create env "IntToken" [] []) (.str "１２.３ １０００ ３.５".toList) [1, 1, 1, 1, 0, 2, 2, 2, 2, 2, 0, 3, 3, 3] [1, 1, 1, 1, 0, 2, 2, 2, 2, 0, 3, 3, 3]
#guard bwdIs (create env "IntToken" [] []) (.str "999".toList) [0, 0, 0, 0, 0] [0, 0, 0]
#guard bwdIs (create env "IntToken" [] []) (.str "９９９".toList) [0, 0, 0, 0, 0] [0, 0, 0]
#guard bwdIs (create env "IntToken" [] []) (.str "０１2３４5６7８９".toList) [3, 3, 3, 3, 3] [3, 3, 3, 3, 3, 3, 3, 3, 3, 3]
#guard bwdIs (create env "IntToken" [] []) (.str "GB亂入".toList) [1, 1, 2, 2] [1, 1, 2, 2]
#guard bwdIs (create env "IntToken" [] []) (.str "GB亂入10次".toList) [1, 1, 2, 2, 3, 3, 3, 3, 3, 4] [1, 1, 2, 2, 3, 3, 4]
#guard bwdIs (create env "IntToken" [] []) (.str "GB亂入１０次".toList) [1, 1, 2, 2, 3, 3, 3, 3, 3, 4] [1, 1, 2, 2, 3, 3, 4]

-- test_transform
#guard outIs (create env "IntToken" [] []) (.str "12 24 3666".toList) (.str "_int_ _int_ _int_".toList)
#guard outIs (create env "IntToken" [] []) (.str "１２ ２４ ３６６６".toList) (.str "_int_ _int_ _int_".toList)
#guard outIs (create env "IntToken" [] []) (.str "12.3 1000 3.5".toList) (.str "12.3 _int_ 3.5".toList)
#guard outIs (create env "IntToken" [] []) (.str "１２.３ １０００ ３.５".toList) (.str "１２.３ _int_ ３.５".toList)
#guard outIs (create env "IntToken" [] []) (.str "999".toList) (.str "_int_".toList)
#guard outIs (create env "IntToken" [] []) (.str "９９９".toList) (.str "_int_".toList)
#guard outIs (create env "IntToken" [] []) (.str "０１2３４5６7８９".toList) (.str "_int_".toList)
#guard outIs (create env "IntToken" [] []) (.str "GB亂入".toList) (.str "GB亂入".toList)
#guard outIs (create env "IntToken" [] []) (.str "GB亂入10次".toList) (.str "GB亂入_int_次".toList)
#guard outIs (create env "IntToken" [] []) (.str "GB亂入１０次".toList) (.str "GB亂入_int_次".toList)

-- test_transform_labels
#guard fwdIs (create env "IntToken" [] []) (.str "12 24 3666".toList) [1, 1, 0, 2, 2, 0, 3, 3, 3, 3] [1, 1, 1, 1, 1, 0, 2, 2, 2, 2, 2, 0, 3, 3, 3, 3, 3]
#guard fwdIs (create env "IntToken" [] []) (.str "１２ ２４ ３６６６".toList) [1, 1, 0, 2, 2, 0, 3, 3, 3, 3] [1, 1, 1, 1, 1, 0, 2, 2, 2, 2, 2, 0, 3, 3, 3, 3, 3]
#guard fwdIs (create env "IntToken" [] []) (.str "12.3 1000 3.5".toList) [1, 1, 1, 1, 0, 2, 2, 2, 2, 0, 3, 3, 3] [1, 1, 1, 1, 0, 2, 2, 2, 2, 2, 0, 3, 3, 3]
#guard fwdIs (create env "IntToken" [] []) (.str "１２.３ １０００ ３.５".toList) [1, 1, 1, 1, 0, 2, 2, 2, 2, 0, 3, 3, 3] [1, 1, 1, 1, 0, 2, 2, 2, 2, 2, 0, 3, 3, 3]
#guard fwdIs (create env "IntToken" [] []) (.str "999".toList) [0, 0, 0] [0, 0, 0, 0, 0]
#guard fwdIs (create env "IntToken" [] []) (.str "９９９".toList) [0, 0, 0] [0, 0, 0, 0, 0]
#guard fwdIs (create env "IntToken" [] []) (.str "０１2３４5６7８９".toList) [3, 3, 3, 3, 3, 3, 3, 3, 3, 3] [3, 3, 3, 3, 3]
#guard fwdIs (create env "IntToken" [] []) (.str "GB亂入".toList) [1, 1, 2, 2] [1, 1, 2, 2]
#guard fwdIs (create env "IntToken" [] []) (.str "GB亂入10次".toList) [1, 1, 2, 2, 3, 3, 4] [1, 1, 2, 2, 3, 3, 3, 3, 3, 4]
#guard fwdIs (create env "IntToken" [] []) (.str "GB亂入１０次".toList) [1, 1, 2, 2, 3, 3, 4] [1, 1, 2, 2, 3, 3, 3, 3, 3, 4]

/-! `/repo/uttut/pipeline/ops/pattern_recognizers/tests/test_int_token_with_space.py` -/

-- test_equal
#guard same (create env "IntTokenWithSpace" [] []) (create env "IntTokenWithSpace" [] [])

-- test_inverse_transform_labels
#guard bwdIs (create env "IntTokenWithSpace" [] []) (.str "12 24 3666".toList) [0, 1, 1, 1, 1, 1, 0, 0, 0, 2, 2, 2, 2, 2, 0, 0, 0, 3, 3, 3, 3, 3, 0] [1, 1, 0, 2, 2, 0, 3, 3, 3, 3]
#guard bwdIs (create env "IntTokenWithSpace" [] []) (.str "１２ ２４ ３６６６".toList) [0, 1, 1, 1, 1, 1, 0, 0, 0, 2, 2, 2, 2, 2, 0, 0, 0, 3, 3, 3, 3, 3, 0] [1, 1, 0, 2, 2, 0, 3, 3, 3, 3]
#guard bwdIs (create env "IntTokenWithSpace" [] []) (.str "12.3 1000 3.5".toList) [1, 1, 1, 1, 0, 0, 2, 2, 2, 2, 2, 0, 0, 3, 3, 3] [1, 1, 1, 1, 0, 2, 2, 2, 2, 0, 3, 3, 3]
#guard bwdIs (create env "IntTokenWithSpace" [] []) (.str "１２.３ １０００ ３.５".toList) [1, 1, 1, 1, 0, 0, 2, 2, 2, 2, 2, 0, 0, 3, 3, 3] [1, 1, 1, 1, 0, 2, 2, 2, 2, 0, 3, 3, 3]
#guard bwdIs (create env "IntTokenWithSpace" [] []) (.str "999".toList) [0, 0, 0, 0, 0, 0, 0] [0, 0, 0]
#guard bwdIs (create env "IntTokenWithSpace" [] []) (.str "９９９".toList) [0, 0, 0, 0, 0, 0, 0] [0, 0, 0]
#guard bwdIs (create env "IntTokenWithSpace" [] []) (.str "０１2３４5６7８９".toList) [0, 3, 3, 3, 3, 3, 0] [3, 3, 3, 3, 3, 3, 3, 3, 3, 3]
#guard bwdIs (create env "IntTokenWithSpace" [] []) (.str "GB亂入".toList) [1, 1, 2, 2] [1, 1, 2, 2]
#guard bwdIs (create env "IntTokenWithSpace" [] []) (.str "GB亂入10次".toList) [1, 1, 2, 2, 0, 3, 3, 3, 3, 3, 0, 4] [1, 1, 2, 2, 3, 3, 4]
#guard bwdIs (create env "IntTokenWithSpace" [] []) (.str "GB亂入１０次".toList) [1, 1, 2, 2, 0, 3, 3, 3, 3, 3, 0, 4] [1, 1, 2, 2, 3, 3, 4]

-- test_transform
#guard outIs (create env "IntTokenWithSpace" [] []) (.str "12 24 3666".toList) (.str " _int_   _int_   _int_ ".toList)
#guard outIs (create env "IntTokenWithSpace" [] []) (.str "１２ ２４ ３６６６".toList) (.str " _int_   _int_   _int_ ".toList)
#guard outIs (create env "IntTokenWithSpace" [] []) (.str "12.3 1000 3.5".toList) (.str "12.3  _int_  3.5".toList)
#guard outIs (create env "IntTokenWithSpace" [] []) (.str "１２.３ １０００ ３.５".toList) (.str "１２.３  _int_  ３.５".toList)
#guard outIs (create env "IntTokenWithSpace" [] []) (.str "999".toList) (.str " _int_ ".toList)
#guard outIs (create env "IntTokenWithSpace" [] []) (.str "９９９".toList) (.str " _int_ ".toList)
#guard outIs (create env "IntTokenWithSpace" [] []) (.str "０１2３４5６7８９".toList) (.str " _int_ ".toList)
#guard outIs (create env "IntTokenWithSpace" [] []) (.str "GB亂入".toList) (.str "GB亂入".toList)
#guard outIs (create env "IntTokenWithSpace" [] []) (.str "GB亂入10次".toList) (.str "GB亂入 _int_ 次".toList)
#guard outIs (create env "IntTokenWithSpace" [] []) (.str "GB亂入１０次".toList) (.str "GB亂入 _int_ 次".toList)

-- test_transform_labels
#guard fwdIs (create env "IntTokenWithSpace" [] []) (.str "12 24 3666".toList) [1, 1, 0, 2, 2, 0, 3, 3, 3, 3] [0, 1, 1, 1, 1, 1, 0, 0, 0, 2, 2, 2, 2, 2, 0, 0, 0, 3, 3, 3, 3, 3, 0]
#guard fwdIs (create env "IntTokenWithSpace" [] []) (.str "１２ ２４ ３６６６".toList) [1, 1, 0, 2, 2, 0, 3, 3, 3, 3] [0, 1, 1, 1, 1, 1, 0, 0, 0, 2, 2, 2, 2, 2, 0, 0, 0, 3, 3, 3, 3, 3, 0]
#guard fwdIs (create env "IntTokenWithSpace" [] []) (.str "12.3 1000 3.5".toList) [1, 1, 1, 1, 0, 2, 2, 2, 2, 0, 3, 3, 3] [1, 1, 1, 1, 0, 0, 2, 2, 2, 2, 2, 0, 0, 3, 3, 3]
#guard fwdIs (create env "IntTokenWithSpace" [] []) (.str "１２.３ １０００ ３.５".toList) [1, 1, 1, 1, 0, 2, 2, 2, 2, 0, 3, 3, 3] [1, 1, 1, 1, 0, 0, 2, 2, 2, 2, 2, 0, 0, 3, 3, 3]
#guard fwdIs (create env "IntTokenWithSpace" [] []) (.str "999".toList) [0, 0, 0] [0, 0, 0, 0, 0, 0, 0]
#guard fwdIs (create env "IntTokenWithSpace" [] []) (.str "９９９".toList) [0, 0, 0] [0, 0, 0, 0, 0, 0, 0]
#guard fwdIs (create env "IntTokenWithSpace" [] []) (.str "０１2３４5６7８９".toList) [3, 3, 3, 3, 3, 3, 3, 3, 3, 3] [0, 3, 3, 3, 3, 3, 0]
#guard fwdIs (create env "IntTokenWithSpace" [] []) (.str "GB亂入".toList) [1, 1, 2, 2] [1, 1, 2, 2]
#guard fwdIs (create env "IntTokenWithSpace" [] []) (.str "GB亂入10次".toList) [1, 1, 2, 2, 3, 3, 4] [1, 1, 2, 2, 0, 3, 3, 3, 3, 3, 0, 4]
#guard fwdIs (create env "IntTokenWithSpace" [] []) (.str "GB亂入１０次".toList) [1, 1, 2, 2, 3, 3, 4] [1, 1, 2, 2, 0, 3, 3, 3, 3, 3, 0, 4]

/-! `/repo/uttut/pipeline/ops/pattern_recognizers/tests/test_merge_whitespace_characters.py` -/

-- test_equal
#guard same (create env "MergeWhiteSpaceCharacters" [] []) (create env "MergeWhiteSpaceCharacters" [] [])

-- test_inverse_transform_labels
#guard bwdIs (create env "MergeWhiteSpaceCharacters" [] []) (.str " \t\n\r\u000b\u000c ".toList) [0] [0, 0, 0, 0, 0, 0, 0]
#guard bwdIs (create env "MergeWhiteSpaceCharacters" [] []) (.str " _int_   _int_   _int_ ".toList) [0, 1, 1, 1, 1, 1, 0, 1, 1, 1, 1, 1, 0, 1, 1, 1, 1, 1, 0] [0, 1, 1, 1, 1, 1, 0, 0, 0, 1, 1, 1, 1, 1, 0, 0, 0, 1, 1, 1, 1, 1, 0]
#guard bwdIs (create env "MergeWhiteSpaceCharacters" [] []) (.str "GB亂入  _int_  次".toList) [1, 1, 2, 2, 0, 3, 3, 3, 3, 3, 0, 4] [1, 1, 2, 2, 0, 0, 3, 3, 3, 3, 3, 0, 0, 4]
#guard bwdIs (create env "MergeWhiteSpaceCharacters" [] []) (.str "我想要喝多 多 綠".toList) [0, 0, 0, 0, 1, 1, 1, 1, 1] [0, 0, 0, 0, 1, 1, 1, 1, 1]
#guard bwdIs (create env "MergeWhiteSpaceCharacters" [] []) (.str "GB亂入".toList) [1, 1, 2, 2] [1, 1, 2, 2]

-- test_transform
#guard outIs (create env "MergeWhiteSpaceCharacters" [] []) (.str " \t\n\r\u000b\u000c ".toList) (.str " ".toList)
#guard outIs (create env "MergeWhiteSpaceCharacters" [] []) (.str " _int_   _int_   _int_ ".toList) (.str " _int_ _int_ _int_ ".toList)
#guard outIs (create env "MergeWhiteSpaceCharacters" [] []) (.str "GB亂入  _int_  次".toList) (.str "GB亂入 _int_ 次".toList)
#guard outIs (create env "MergeWhiteSpaceCharacters" [] []) (.str "我想要喝多 多 綠".toList) (.str "我想要喝多 多 綠".toList)
#guard outIs (create env "MergeWhiteSpaceCharacters" [] []) (.str "GB亂入".toList) (.str "GB亂入".toList)

-- test_transform_labels
#guard fwdIs (create env "MergeWhiteSpaceCharacters" [] []) (.str " \t\n\r\u000b\u000c ".toList) [0, 0, 0, 0, 0, 0, 0] [0]
#guard fwdIs (create env "MergeWhiteSpaceCharacters" [] []) (.str " _int_   _int_   _int_ ".toList) [0, 1, 1, 1, 1, 1, 0, 0, 0, 1, 1, 1, 1, 1, 0, 0, 0, 1, 1, 1, 1, 1, 0] [0, 1, 1, 1, 1, 1, 0, 1, 1, 1, 1, 1, 0, 1, 1, 1, 1, 1, 0]
#guard fwdIs (create env "MergeWhiteSpaceCharacters" [] []) (.str "GB亂入  _int_  次".toList) [1, 1, 2, 2, 0, 0, 3, 3, 3, 3, 3, 0, 0, 4] [1, 1, 2, 2, 0, 3, 3, 3, 3, 3, 0, 4]
#guard fwdIs (create env "MergeWhiteSpaceCharacters" [] []) (.str "我想要喝多 多 綠".toList) [0, 0, 0, 0, 1, 1, 1, 1, 1] [0, 0, 0, 0, 1, 1, 1, 1, 1]
#guard fwdIs (create env "MergeWhiteSpaceCharacters" [] []) (.str "GB亂入".toList) [1, 1, 2, 2] [1, 1, 2, 2]

/-! `/repo/uttut/pipeline/ops/pattern_recognizers/tests/test_num_token_with_space.py` -/

-- test_equal
#guard same (create env "NumTokenWithSpace" [] []) (create env "NumTokenWithSpace" [] [])

-- test_inverse_transform_labels
#guard bwdIs (create env "NumTokenWithSpace" [] []) (.str "12 24 3666".toList) [0, 1, 1, 1, 1, 1, 0, 0, 0, 2, 2, 2, 2, 2, 0, 0, 0, 3, 3, 3, 3, 3, 0] [1, 1, 0, 2, 2, 0, 3, 3, 3, 3]
#guard bwdIs (create env "NumTokenWithSpace" [] []) (.str "１２ ２４ ３６６６".toList) [0, 1, 1, 1, 1, 1, 0, 0, 0, 2, 2, 2, 2, 2, 0, 0, 0, 3, 3, 3, 3, 3, 0] [1, 1, 0, 2, 2, 0, 3, 3, 3, 3]
#guard bwdIs (create env "NumTokenWithSpace" [] []) (.str "12.3 1000 3.5".toList) [1, 1, 1, 1, 0, 0, 2, 2, 2, 2, 2, 0, 0, 3, 3, 3] [1, 1, 1, 1, 0, 2, 2, 2, 2, 0, 3, 3, 3]
#guard bwdIs (create env "NumTokenWithSpace" [] []) (.str "１２.３ １０００ ３.５".toList) [1, 1, 1, 1, 0, 0, 2, 2, 2, 2, 2, 0, 0, 3, 3, 3] [1, 1, 1, 1, 0, 2, 2, 2, 2, 0, 3, 3, 3]
#guard bwdIs (create env "NumTokenWithSpace" [] []) (.str "999".toList) [0, 0, 0, 0, 0, 0, 0] [0, 0, 0]
#guard bwdIs (create env "NumTokenWithSpace" [] []) (.str "９９９".toList) [0, 0, 0, 0, 0, 0, 0] [0, 0, 0]
#guard bwdIs (create env "NumTokenWithSpace" [] []) (.str "０１2３４5６7８９".toList) [0, 3, 3, 3, 3, 3, 0] [3, 3, 3, 3, 3, 3, 3, 3, 3, 3]
#guard bwdIs (create env "NumTokenWithSpace" [] []) (.str "GB亂入".toList) [1, 1, 2, 2] [1, 1, 2, 2]
#guard bwdIs (create env "NumTokenWithSpace" [] []) (.str "GB亂入10次".toList) [1, 1, 2, 2, 0, 3, 3, 3, 3, 3, 0, 4] [1, 1, 2, 2, 3, 3, 4]
#guard bwdIs (create env "NumTokenWithSpace" [] []) (.str "GB亂入１０次".toList) [1, 1, 2, 2, 0, 3, 3, 3, 3, 3, 0, 4] [1, 1, 2, 2, 3, 3, 4]

-- test_transform
#guard outIs (create env "NumTokenWithSpace" [] []) (.str "12 24 3666".toList) (.str " _num_   _num_   _num_ ".toList)
#guard outIs (create env "NumTokenWithSpace" [] []) (.str "１２ ２４ ３６６６".toList) (.str " _num_   _num_   _num_ ".toList)
#guard outIs (create env "NumTokenWithSpace" [] []) (.str "12.3 1000 3.5".toList) (.str "12.3  _num_  3.5".toList)
#guard outIs (create env "NumTokenWithSpace" [] []) (.str "１２.３ １０００ ３.５".toList) (.str "１２.３  _num_  ３.５".toList)
#guard outIs (create env "NumTokenWithSpace" [] []) (.str "999".toList) (.str " _num_ ".toList)
#guard outIs (create env "NumTokenWithSpace" [] []) (.str "９９９".toList) (.str " _num_ ".toList)
#guard outIs (create env "NumTokenWithSpace" [] []) (.str "０１2３４5６7８９".toList) (.str " _num_ ".toList)
#guard outIs (create env "NumTokenWithSpace" [] []) (.str "GB亂入".toList) (.str "GB亂入".toList)
#guard outIs (create env "NumTokenWithSpace" [] []) (.str "GB亂入10次".toList) (.str "GB亂入 _num_ 次".toList)
#guard outIs (create env "NumTokenWithSpace" [] []) (.str "GB亂入１０次".toList) (.str "GB亂入 _num_ 次".toList)

-- test_transform_labels
#guard fwdIs (create env "NumTokenWithSpace" [] []) (.str "12 24 3666".toList) [1, 1, 0, 2, 2, 0, 3, 3, 3, 3] [0, 1, 1, 1, 1, 1, 0, 0, 0, 2, 2, 2, 2, 2, 0, 0, 0, 3, 3, 3, 3, 3, 0]
#guard fwdIs (create env "NumTokenWithSpace" [] []) (.str "１２ ２４ ３６６６".toList) [1, 1, 0, 2, 2, 0, 3, 3, 3, 3] [0, 1, 1, 1, 1, 1, 0, 0, 0, 2, 2, 2, 2, 2, 0, 0, 0, 3, 3, 3, 3, 3, 0]
#guard fwdIs (create env "NumTokenWithSpace" [] []) (.str "12.3 1000 3.5".toList) [1, 1, 1, 1, 0, 2, 2, 2, 2, 0, 3, 3, 3] [1, 1, 1, 1, 0, 0, 2, 2, 2, 2, 2, 0, 0, 3, 3, 3]
#guard fwdIs (create env "NumTokenWithSpace" [] []) (.str "１２.３ １０００ ３.５".toList) [1, 1, 1, 1, 0, 2, 2, 2, 2, 0, 3, 3, 3] [1, 1, 1, 1, 0, 0, 2, 2, 2, 2, 2, 0, 0, 3, 3, 3]
#guard fwdIs (create env "NumTokenWithSpace" [] []) (.str "999".toList) [0, 0, 0] [0, 0, 0, 0, 0, 0, 0]
#guard fwdIs (create env "NumTokenWithSpace" [] []) (.str "９９９".toList) [0, 0, 0] [0, 0, 0, 0, 0, 0, 0]
#guard fwdIs (create env "NumTokenWithSpace" [] []) (.str "０１2３４5６7８９".toList) [3, 3, 3, 3, 3, 3, 3, 3, 3, 3] [0, 3, 3, 3, 3, 3, 0]
#guard fwdIs (create env "NumTokenWithSpace" [] []) (.str "GB亂入".toList) [1, 1, 2, 2] [1, 1, 2, 2]
#guard fwdIs (create env "NumTokenWithSpace" [] []) (.str "GB亂入10次".toList) [1, 1, 2, 2, 3, 3, 4] [1, 1, 2, 2, 0, 3, 3, 3, 3, 3, 0, 4]
#guard fwdIs (create env "NumTokenWithSpace" [] []) (.str "GB亂入１０次".toList) [1, 1, 2, 2, 3, 3, 4] [1, 1, 2, 2, 0, 3, 3, 3, 3, 3, 0, 4]

/-! `/repo/uttut/pipeline/ops/pattern_recognizers/tests/test_replace_a_with_b.py` -/

-- test_inverse_transform_labels
#guard bwdIs (create env "ReplaceAwithB" [] [("a".toList, .str "[\\.]+".toList), ("b".toList, .str " ".toList)]) (.str "12.34.56.78.910".toList) [1, 2, 3, 4, 5, 6, 7, 8, 9, 10, 11, 12, 13, 14, 15] [1, 2, 3, 4, 5, 6, 7, 8, 9, 10, 11, 12, 13, 14, 15]
#guard bwdIs (create env "ReplaceAwithB" [] [("a".toList, .str "[\\.]+".toList), ("b".toList, .str " ".toList)]) (.str "GB亂入".toList) [1, 1, 2, 2] [1, 1, 2, 2]

-- test_not_invertiable
#guard outIs (create env "ReplaceAwithB" [] [("a".toList, .str "[\\.]+".toList), ("b".toList, .str " ".toList)]) (.str ".....".toList) (.str " ".toList)
#guard fwdIs (create env "ReplaceAwithB" [] [("a".toList, .str "[\\.]+".toList), ("b".toList, .str " ".toList)]) (.str ".....".toList) [1, 1, 3, 1, 1] [1]
#guard bwdIs (create env "ReplaceAwithB" [] [("a".toList, .str "[\\.]+".toList), ("b".toList, .str " ".toList)]) (.str ".....".toList) [1] [1, 1, 1, 1, 1]

-- test_transform
#guard outIs (create env "ReplaceAwithB" [] [("a".toList, .str "[\\.]+".toList), ("b".toList, .str " ".toList)]) (.str "12.34.56.78.910".toList) (.str "12 34 56 78 910".toList)
#guard outIs (create env "ReplaceAwithB" [] [("a".toList, .str "[\\.]+".toList), ("b".toList, .str " ".toList)]) (.str "GB亂入".toList) (.str "GB亂入".toList)

-- test_transform_labels
#guard fwdIs (create env "ReplaceAwithB" [] [("a".toList, .str "[\\.]+".toList), ("b".toList, .str " ".toList)]) (.str "12.34.56.78.910".toList) [1, 2, 3, 4, 5, 6, 7, 8, 9, 10, 11, 12, 13, 14, 15] [1, 2, 3, 4, 5, 6, 7, 8, 9, 10, 11, 12, 13, 14, 15]
#guard fwdIs (create env "ReplaceAwithB" [] [("a".toList, .str "[\\.]+".toList), ("b".toList, .str " ".toList)]) (.str "GB亂入".toList) [1, 1, 2, 2] [1, 1, 2, 2]

/-! `/repo/uttut/pipeline/ops/pattern_recognizers/tests/test_stopwords_to_whitespace.py` -/

-- test_equal
#guard same (create env "StopwordsToWhitespace" [] []) (create env "StopwordsToWhitespace" [] [])

-- test_inverse_transform_labels
#guard bwdIs (create env "StopwordsToWhitespace" [] []) (.str "吧噠嗚呼呼哧哎呀哎喲哼唷啪達喔唷嗡嗡嘎登吧呀啊呢嗎哇啦哪喲囉唷哩吱呀呃嘔唄嗚呢呵呸咋咚咦咳哇哉哎嘩喲哦哩哼唉啊啐啥啦喂喏呵嗯噯嘎噓嘻嘿".toList) [0, 0, 0, 0, 0, 0, 0, 0, 0, 0, 0, 0, 0, 0, 0, 0, 0, 0, 0, 0, 0, 0, 0, 0, 0, 0, 0, 0, 0, 0, 0, 0, 0, 0, 0, 0, 0, 0, 0, 0, 0, 0, 0, 0, 0, 0, 0, 0, 0, 0, 0, 0, 0, 0, 0, 0, 0] [0, 0, 0, 0, 0, 0, 0, 0, 0, 0, 0, 0, 0, 0, 0, 0, 0, 0, 0, 0, 0, 0, 0, 0, 0, 0, 0, 0, 0, 0, 0, 0, 0, 0, 0, 0, 0, 0, 0, 0, 0, 0, 0, 0, 0, 0, 0, 0, 0, 0, 0, 0, 0, 0, 0, 0, 0, 0, 0, 0, 0, 0, 0, 0, 0, 0, 0]
#guard bwdIs (create env "StopwordsToWhitespace" [] []) (.str "你好嗎".toList) [1, 2, 0] [1, 2, 0]

-- test_not_invertiable
#guard outIs (create env "StopwordsToWhitespace" [] []) (.str "哎呀,你好嗎".toList) (.str " ,你好 ".toList)
#guard fwdIs (create env "StopwordsToWhitespace" [] []) (.str "哎呀,你好嗎".toList) [1, 2, 3, 4, 5, 6] [0, 3, 4, 5, 0]
#guard bwdIs (create env "StopwordsToWhitespace" [] []) (.str "哎呀,你好嗎".toList) [0, 3, 4, 5, 0] [0, 0, 3, 4, 5, 0]

-- test_transform
#guard outIs (create env "StopwordsToWhitespace" [] []) (.str "吧噠嗚呼呼哧哎呀哎喲哼唷啪達喔唷嗡嗡嘎登吧呀啊呢嗎哇啦哪喲囉唷哩吱呀呃嘔唄嗚呢呵呸咋咚咦咳哇哉哎嘩喲哦哩哼唉啊啐啥啦喂喏呵嗯噯嘎噓嘻嘿".toList) (.str "                                                         ".toList)
#guard outIs (create env "StopwordsToWhitespace" [] []) (.str "你好嗎".toList) (.str "你好 ".toList)

-- test_transform_labels
#guard fwdIs (create env "StopwordsToWhitespace" [] []) (.str "吧噠嗚呼呼哧哎呀哎喲哼唷啪達喔唷嗡嗡嘎登吧呀啊呢嗎哇啦哪喲囉唷哩吱呀呃嘔唄嗚呢呵呸咋咚咦咳哇哉哎嘩喲哦哩哼唉啊啐啥啦喂喏呵嗯噯嘎噓嘻嘿".toList) [0, 0, 0, 0, 0, 0, 0, 0, 0, 0, 0, 0, 0, 0, 0, 0, 0, 0, 0, 0, 0, 0, 0, 0, 0, 0, 0, 0, 0, 0, 0, 0, 0, 0, 0, 0, 0, 0, 0, 0, 0, 0, 0, 0, 0, 0, 0, 0, 0, 0, 0, 0, 0, 0, 0, 0, 0, 0, 0, 0, 0, 0, 0, 0, 0, 0, 0] [0, 0, 0, 0, 0, 0, 0, 0, 0, 0, 0, 0, 0, 0, 0, 0, 0, 0, 0, 0, 0, 0, 0, 0, 0, 0, 0, 0, 0, 0, 0, 0, 0, 0, 0, 0, 0, 0, 0, 0, 0, 0, 0, 0, 0, 0, 0, 0, 0, 0, 0, 0, 0, 0, 0, 0, 0]
#guard fwdIs (create env "StopwordsToWhitespace" [] []) (.str "你好嗎".toList) [1, 2, 0] [1, 2, 0]

/-! `/repo/uttut/pipeline/ops/pattern_recognizers/tests/test_strip_whitespace_characters.py` -/

-- test_all_whitespaces
#guard outIs (create env "StripWhiteSpaceCharacters" [] []) (.str "  \n\n\t\t".toList) (.str "".toList)
#guard fwdIs (create env "StripWhiteSpaceCharacters" [] []) (.str "  \n\n\t\t".toList) [1, 2, 3, 4, 5, 6] []
#guard bwdIs (create env "StripWhiteSpaceCharacters" [] []) (.str "  \n\n\t\t".toList) [] [0, 0, 0, 0, 0, 0]

-- test_equal
#guard same (create env "StripWhiteSpaceCharacters" [] []) (create env "StripWhiteSpaceCharacters" [] [])

-- test_inverse_transform_labels
#guard bwdIs (create env "StripWhiteSpaceCharacters" [] []) (.str " \t\n\r\u000b\u000c ".toList) [] [0, 0, 0, 0, 0, 0, 0]
#guard bwdIs (create env "StripWhiteSpaceCharacters" [] []) (.str " abc \n\t ".toList) [1, 1, 1] [0, 1, 1, 1, 0, 0, 0, 0]
#guard bwdIs (create env "StripWhiteSpaceCharacters" [] []) (.str "我想要喝多 多 綠".toList) [0, 0, 0, 0, 1, 1, 1, 1, 1] [0, 0, 0, 0, 1, 1, 1, 1, 1]
#guard bwdIs (create env "StripWhiteSpaceCharacters" [] []) (.str "GB亂入".toList) [1, 1, 2, 2] [1, 1, 2, 2]
#guard bwdIs (create env "StripWhiteSpaceCharacters" [] []) (.str "".toList) [] []

-- test_transform
#guard outIs (create env "StripWhiteSpaceCharacters" [] []) (.str " \t\n\r\u000b\u000c ".toList) (.str "".toList)
#guard outIs (create env "StripWhiteSpaceCharacters" [] []) (.str " abc \n\t ".toList) (.str "abc".toList)
#guard outIs (create env "StripWhiteSpaceCharacters" [] []) (.str "我想要喝多 多 綠".toList) (.str "我想要喝多 多 綠".toList)
#guard outIs (create env "StripWhiteSpaceCharacters" [] []) (.str "GB亂入".toList) (.str "GB亂入".toList)
#guard outIs (create env "StripWhiteSpaceCharacters" [] []) (.str "".toList) (.str "".toList)

-- test_transform_labels
#guard fwdIs (create env "StripWhiteSpaceCharacters" [] []) (.str " \t\n\r\u000b\u000c ".toList) [0, 0, 0, 0, 0, 0, 0] []
#guard fwdIs (create env "StripWhiteSpaceCharacters" [] []) (.str " abc \n\t ".toList) [0, 1, 1, 1, 0, 0, 0, 0] [1, 1, 1]
#guard fwdIs (create env "StripWhiteSpaceCharacters" [] []) (.str "我想要喝多 多 綠".toList) [0, 0, 0, 0, 1, 1, 1, 1, 1] [0, 0, 0, 0, 1, 1, 1, 1, 1]
#guard fwdIs (create env "StripWhiteSpaceCharacters" [] []) (.str "GB亂入".toList) [1, 1, 2, 2] [1, 1, 2, 2]
#guard fwdIs (create env "StripWhiteSpaceCharacters" [] []) (.str "".toList) [] []

/-! `/repo/uttut/pipeline/ops/tests/test_add_end_token.py` -/

-- test_inverse_transform_labels
#guard bwdIs (create env "AddEndToken" [] []) (.list [.str "alvin".toList, .str "喜歡".toList, .str "吃".toList, .str "榴槤".toList]) [1, 2, 3, 4, 0] [1, 2, 3, 4]

-- test_not_equal
#guard differ (create env "AddEndToken" [] [("end_token".toList, .str "custom_EOS".toList)]) (create env "AddEndToken" [] [])

-- test_transform
#guard outIs (create env "AddEndToken" [] []) (.list [.str "alvin".toList, .str "喜歡".toList, .str "吃".toList, .str "榴槤".toList]) (.list [.str "alvin".toList, .str "喜歡".toList, .str "吃".toList, .str "榴槤".toList, .str "<eos>".toList])

-- test_transform_labels
#guard fwdIs (create env "AddEndToken" [] []) (.list [.str "alvin".toList, .str "喜歡".toList, .str "吃".toList, .str "榴槤".toList]) [1, 2, 3, 4] [1, 2, 3, 4, 0]

-- test_correct_configs
#guard configsAre (create env "AddEndToken" [] []) (.dict [("end_token".toList, .str "<eos>".toList)])
#guard configsAre (create env "AddEndToken" [.str "1".toList] []) (.dict [("end_token".toList, .str "1".toList)])

-- test_invalid_end_token
#guard raises (create env "AddEndToken" [.none] []) .valueError
#guard raises (create env "AddEndToken" [.int 1] []) .typeError
#guard raises (create env "AddEndToken" [.str "".toList] []) .valueError

/-! `/repo/uttut/pipeline/ops/tests/test_add_sos_eos.py` -/

-- test_inverse_transform_labels
#guard bwdIs (create env "AddSosEos" [] []) (.list [.str "alvin".toList, .str "喜歡".toList, .str "吃".toList, .str "榴槤".toList]) [0, 1, 2, 3, 4, 0] [1, 2, 3, 4]

-- test_not_equal
#guard differ (create env "AddSosEos" [] [("start_token".toList, .str "custom_SOS".toList), ("end_token".toList, .str "custom_EOS".toList)]) (create env "AddSosEos" [] [])

-- test_transform
#guard outIs (create env "AddSosEos" [] []) (.list [.str "alvin".toList, .str "喜歡".toList, .str "吃".toList, .str "榴槤".toList]) (.list [.str "<sos>".toList, .str "alvin".toList, .str "喜歡".toList, .str "吃".toList, .str "榴槤".toList, .str "<eos>".toList])

-- test_transform_labels
#guard fwdIs (create env "AddSosEos" [] []) (.list [.str "alvin".toList, .str "喜歡".toList, .str "吃".toList, .str "榴槤".toList]) [1, 2, 3, 4] [0, 1, 2, 3, 4, 0]

-- test_correct_configs
#guard configsAre (create env "AddSosEos" [] []) (.dict [("start_token".toList, .str "<sos>".toList), ("end_token".toList, .str "<eos>".toList)])
#guard configsAre (create env "AddSosEos" [.str "1".toList, .str "2".toList] []) (.dict [("start_token".toList, .str "1".toList), ("end_token".toList, .str "2".toList)])
#guard configsAre (create env "AddSosEos" [.str "1".toList] []) (.dict [("start_token".toList, .str "1".toList), ("end_token".toList, .str "<eos>".toList)])
#guard configsAre (create env "AddSosEos" [] [("end_token".toList, .str "2".toList), ("start_token".toList, .str "1".toList)]) (.dict [("start_token".toList, .str "1".toList), ("end_token".toList, .str "2".toList)])

/-! `/repo/uttut/pipeline/ops/tests/test_add_whitespace_around_cjk.py` -/

-- test_equal
#guard same (create env "AddWhitespaceAroundCJK" [] []) (create env "AddWhitespaceAroundCJK" [] [])

-- test_inverse_transform_labels
#guard bwdIs (create env "AddWhitespaceAroundCJK" [] []) (.str "alvin喜歡吃榴槤".toList) [1, 1, 1, 1, 1, 0, 2, 0, 0, 3, 0, 0, 4, 0, 0, 5, 0, 0, 6, 0] [1, 1, 1, 1, 1, 2, 3, 4, 5, 6]
#guard bwdIs (create env "AddWhitespaceAroundCJK" [] []) (.str "hello! how are you?".toList) [1, 1, 1, 1, 1, 2, 0, 3, 3, 3, 0, 4, 4, 4, 0, 5, 5, 5, 6] [1, 1, 1, 1, 1, 2, 0, 3, 3, 3, 0, 4, 4, 4, 0, 5, 5, 5, 6]

-- test_transform
#guard outIs (create env "AddWhitespaceAroundCJK" [] []) (.str "alvin喜歡吃榴槤".toList) (.str "alvin 喜  歡  吃  榴  槤 ".toList)
#guard outIs (create env "AddWhitespaceAroundCJK" [] []) (.str "hello! how are you?".toList) (.str "hello! how are you?".toList)

-- test_transform_labels
#guard fwdIs (create env "AddWhitespaceAroundCJK" [] []) (.str "alvin喜歡吃榴槤".toList) [1, 1, 1, 1, 1, 2, 3, 4, 5, 6] [1, 1, 1, 1, 1, 0, 2, 0, 0, 3, 0, 0, 4, 0, 0, 5, 0, 0, 6, 0]
#guard fwdIs (create env "AddWhitespaceAroundCJK" [] []) (.str "hello! how are you?".toList) [1, 1, 1, 1, 1, 2, 0, 3, 3, 3, 0, 4, 4, 4, 0, 5, 5, 5, 6] [1, 1, 1, 1, 1, 2, 0, 3, 3, 3, 0, 4, 4, 4, 0, 5, 5, 5, 6]

/-! `/repo/uttut/pipeline/ops/tests/test_add_whitespace_around_punctuation.py` -/

-- test_equal
#guard same (create env "AddWhitespaceAroundPunctuation" [] []) (create env "AddWhitespaceAroundPunctuation" [] [])

-- test_inverse_transform_labels
#guard bwdIs (create env "AddWhitespaceAroundPunctuation" [] []) (.str "^$`".toList) [0, 1, 0, 0, 2, 0, 0, 3, 0] [1, 2, 3]
#guard bwdIs (create env "AddWhitespaceAroundPunctuation" [] []) (.str "⁕⁇※࡞".toList) [0, 1, 0, 0, 2, 0, 0, 3, 0, 0, 4, 0] [1, 2, 3, 4]
#guard bwdIs (create env "AddWhitespaceAroundPunctuation" [] []) (.str "a,b".toList) [1, 0, 2, 0, 3] [1, 2, 3]
#guard bwdIs (create env "AddWhitespaceAroundPunctuation" [] []) (.str "隼興亂入".toList) [2, 3, 4, 5] [2, 3, 4, 5]

-- test_transform
#guard outIs (create env "AddWhitespaceAroundPunctuation" [] []) (.str "^$`".toList) (.str " ^  $  ` ".toList)
#guard outIs (create env "AddWhitespaceAroundPunctuation" [] []) (.str "⁕⁇※࡞".toList) (.str " ⁕  ⁇  ※  ࡞ ".toList)
#guard outIs (create env "AddWhitespaceAroundPunctuation" [] []) (.str "a,b".toList) (.str "a , b".toList)
#guard outIs (create env "AddWhitespaceAroundPunctuation" [] []) (.str "隼興亂入".toList) (.str "隼興亂入".toList)

-- test_transform_labels
#guard fwdIs (create env "AddWhitespaceAroundPunctuation" [] []) (.str "^$`".toList) [1, 2, 3] [0, 1, 0, 0, 2, 0, 0, 3, 0]
#guard fwdIs (create env "AddWhitespaceAroundPunctuation" [] []) (.str "⁕⁇※࡞".toList) [1, 2, 3, 4] [0, 1, 0, 0, 2, 0, 0, 3, 0, 0, 4, 0]
#guard fwdIs (create env "AddWhitespaceAroundPunctuation" [] []) (.str "a,b".toList) [1, 2, 3] [1, 0, 2, 0, 3]
#guard fwdIs (create env "AddWhitespaceAroundPunctuation" [] []) (.str "隼興亂入".toList) [2, 3, 4, 5] [2, 3, 4, 5]

/-! `/repo/uttut/pipeline/ops/tests/test_add_whitespace_around_word_n_zhchar.py` -/

-- test_equal
#guard same (create env "AddWhitespaceAroundWordnZhChar" [] [("user_words".toList, .list [.str "alvin".toList, .str "珍珠".toList, .str "奶茶".toList, .str "珍珠奶茶".toList, .str "精緻".toList])]) (create env "AddWhitespaceAroundWordnZhChar" [] [("user_words".toList, .list [.str "alvin".toList, .str "珍珠".toList, .str "奶茶".toList, .str "珍珠奶茶".toList, .str "精緻".toList])])

-- test_invalid_op
#guard raises (create env "AddWhitespaceAroundWordnZhChar" [] [("user_words".toList, .list [])]) .valueError
#guard raises (create env "AddWhitespaceAroundWordnZhChar" [] [("user_words".toList, .none)]) .valueError

-- test_inverse_transform_labels
#guard bwdIs (create env "AddWhitespaceAroundWordnZhChar" [] [("user_words".toList, .list [.str "alvin".toList, .str "珍珠".toList, .str "奶茶".toList, .str "珍珠奶茶".toList, .str "精緻".toList])]) (.str "HSB5改成HSA5，如何辦理？".toList) [1, 2, 3, 4, 0, 5, 0, 0, 6, 0, 7, 8, 9, 10, 11, 0, 12, 0, 0, 13, 0, 0, 14, 0, 0, 15, 0, 16] [1, 2, 3, 4, 5, 6, 7, 8, 9, 10, 11, 12, 13, 14, 15, 16]
#guard bwdIs (create env "AddWhitespaceAroundWordnZhChar" [] [("user_words".toList, .list [.str "alvin".toList, .str "珍珠".toList, .str "奶茶".toList, .str "珍珠奶茶".toList, .str "精緻".toList])]) (.str "薄餡在喝珍珠椰果奶茶".toList) [0, 1, 0, 0, 2, 0, 0, 3, 0, 0, 4, 0, 0, 5, 6, 0, 0, 7, 0, 0, 8, 0, 0, 9, 10, 0] [1, 2, 3, 4, 5, 6, 7, 8, 9, 10]
#guard bwdIs (create env "AddWhitespaceAroundWordnZhChar" [] [("user_words".toList, .list [.str "alvin".toList, .str "珍珠".toList, .str "奶茶".toList, .str "珍珠奶茶".toList, .str "精緻".toList])]) (.str "珍珠是精緻澱粉".toList) [0, 1, 2, 0, 0, 3, 0, 0, 4, 5, 0, 0, 6, 0, 0, 7, 0] [1, 2, 3, 4, 5, 6, 7]
#guard bwdIs (create env "AddWhitespaceAroundWordnZhChar" [] [("user_words".toList, .list [.str "alvin".toList, .str "珍珠".toList, .str "奶茶".toList, .str "珍珠奶茶".toList, .str "精緻".toList])]) (.str "GB亂入".toList) [1, 2, 0, 3, 0, 0, 4, 0] [1, 2, 3, 4]
#guard bwdIs (create env "AddWhitespaceAroundWordnZhChar" [] [("user_words".toList, .list [.str "alvin".toList, .str "珍珠".toList, .str "奶茶".toList, .str "珍珠奶茶".toList, .str "精緻".toList])]) (.str "1234567890".toList) [1, 2, 3, 4, 5, 6, 7, 8, 9, 10] [1, 2, 3, 4, 5, 6, 7, 8, 9, 10]
#guard bwdIs (create env "AddWhitespaceAroundWordnZhChar" [] [("user_words".toList, .list [.str "alvin".toList, .str "珍珠".toList, .str "奶茶".toList, .str "珍珠奶茶".toList, .str "精緻".toList])]) (.str "that's awesome!".toList) [1, 2, 3, 4, 5, 6, 7, 8, 9, 10, 11, 12, 13, 14, 15] [1, 2, 3, 4, 5, 6, 7, 8, 9, 10, 11, 12, 13, 14, 15]

-- test_transform
#guard outIs (create env "AddWhitespaceAroundWordnZhChar" [] [("user_words".toList, .list [.str "alvin".toList, .str "珍珠".toList, .str "奶茶".toList, .str "珍珠奶茶".toList, .str "精緻".toList])]) (.str "HSB5改成HSA5，如何辦理？".toList) (.str "HSB5 改  成 HSA5， 如  何  辦  理 ？".toList)
#guard outIs (create env "AddWhitespaceAroundWordnZhChar" [] [("user_words".toList, .list [.str "alvin".toList, .str "珍珠".toList, .str "奶茶".toList, .str "珍珠奶茶".toList, .str "精緻".toList])]) (.str "薄餡在喝珍珠椰果奶茶".toList) (.str " 薄  餡  在  喝  珍珠  椰  果  奶茶 ".toList)
#guard outIs (create env "AddWhitespaceAroundWordnZhChar" [] [("user_words".toList, .list [.str "alvin".toList, .str "珍珠".toList, .str "奶茶".toList, .str "珍珠奶茶".toList, .str "精緻".toList])]) (.str "珍珠是精緻澱粉".toList) (.str " 珍珠  是  精緻  澱  粉 ".toList)
#guard outIs (create env "AddWhitespaceAroundWordnZhChar" [] [("user_words".toList, .list [.str "alvin".toList, .str "珍珠".toList, .str "奶茶".toList, .str "珍珠奶茶".toList, .str "精緻".toList])]) (.str "GB亂入".toList) (.str "GB 亂  入 ".toList)
#guard outIs (create env "AddWhitespaceAroundWordnZhChar" [] [("user_words".toList, .list [.str "alvin".toList, .str "珍珠".toList, .str "奶茶".toList, .str "珍珠奶茶".toList, .str "精緻".toList])]) (.str "1234567890".toList) (.str "1234567890".toList)
#guard outIs (create env "AddWhitespaceAroundWordnZhChar" [] [("user_words".toList, .list [.str "alvin".toList, .str "珍珠".toList, .str "奶茶".toList, .str "珍珠奶茶".toList, .str "精緻".toList])]) (.str "that's awesome!".toList) (.str "that's awesome!".toList)

-- test_transform_labels
#guard fwdIs (create env "AddWhitespaceAroundWordnZhChar" [] [("user_words".toList, .list [.str "alvin".toList, .str "珍珠".toList, .str "奶茶".toList, .str "珍珠奶茶".toList, .str "精緻".toList])]) (.str "HSB5改成HSA5，如何辦理？".toList) [1, 2, 3, 4, 5, 6, 7, 8, 9, 10, 11, 12, 13, 14, 15, 16] [1, 2, 3, 4, 0, 5, 0, 0, 6, 0, 7, 8, 9, 10, 11, 0, 12, 0, 0, 13, 0, 0, 14, 0, 0, 15, 0, 16]
#guard fwdIs (create env "AddWhitespaceAroundWordnZhChar" [] [("user_words".toList, .list [.str "alvin".toList, .str "珍珠".toList, .str "奶茶".toList, .str "珍珠奶茶".toList, .str "精緻".toList])]) (.str "薄餡在喝珍珠椰果奶茶".toList) [1, 2, 3, 4, 5, 6, 7, 8, 9, 10] [0, 1, 0, 0, 2, 0, 0, 3, 0, 0, 4, 0, 0, 5, 6, 0, 0, 7, 0, 0, 8, 0, 0, 9, 10, 0]
#guard fwdIs (create env "AddWhitespaceAroundWordnZhChar" [] [("user_words".toList, .list [.str "alvin".toList, .str "珍珠".toList, .str "奶茶".toList, .str "珍珠奶茶".toList, .str "精緻".toList])]) (.str "珍珠是精緻澱粉".toList) [1, 2, 3, 4, 5, 6, 7] [0, 1, 2, 0, 0, 3, 0, 0, 4, 5, 0, 0, 6, 0, 0, 7, 0]
#guard fwdIs (create env "AddWhitespaceAroundWordnZhChar" [] [("user_words".toList, .list [.str "alvin".toList, .str "珍珠".toList, .str "奶茶".toList, .str "珍珠奶茶".toList, .str "精緻".toList])]) (.str "GB亂入".toList) [1, 2, 3, 4] [1, 2, 0, 3, 0, 0, 4, 0]
#guard fwdIs (create env "AddWhitespaceAroundWordnZhChar" [] [("user_words".toList, .list [.str "alvin".toList, .str "珍珠".toList, .str "奶茶".toList, .str "珍珠奶茶".toList, .str "精緻".toList])]) (.str "1234567890".toList) [1, 2, 3, 4, 5, 6, 7, 8, 9, 10] [1, 2, 3, 4, 5, 6, 7, 8, 9, 10]
#guard fwdIs (create env "AddWhitespaceAroundWordnZhChar" [] [("user_words".toList, .list [.str "alvin".toList, .str "珍珠".toList, .str "奶茶".toList, .str "珍珠奶茶".toList, .str "精緻".toList])]) (.str "that's awesome!".toList) [1, 2, 3, 4, 5, 6, 7, 8, 9, 10, 11, 12, 13, 14, 15] [1, 2, 3, 4, 5, 6, 7, 8, 9, 10, 11, 12, 13, 14, 15]

/-! `/repo/uttut/pipeline/ops/tests/test_lowercase.py` -/

-- test_equal
#guard same (create env "Lowercase" [] []) (create env "Lowercase" [] [])

-- test_inverse_transform_labels
#guard bwdIs (create env "Lowercase" [] []) (.str "ABCDEFGHIJKLMNOPQRSTUVWXYZ".toList) [0, 1, 2, 3, 4, 5, 6, 7, 8, 9, 10, 11, 12, 13, 14, 15, 16, 17, 18, 19, 20, 21, 22, 23, 24, 25] [0, 1, 2, 3, 4, 5, 6, 7, 8, 9, 10, 11, 12, 13, 14, 15, 16, 17, 18, 19, 20, 21, 22, 23, 24, 25]
#guard bwdIs (create env "Lowercase" [] []) (.str "Hello hoW are U".toList) [1, 2, 3, 4, 5, 0, 6, 7, 8, 0, 9, 10, 11, 0, 12] [1, 2, 3, 4, 5, 0, 6, 7, 8, 0, 9, 10, 11, 0, 12]
#guard bwdIs (create env "Lowercase" [] []) (.str "薄餡亂入".toList) [0, 1, 2, 3] [0, 1, 2, 3]
#guard bwdIs (create env "Lowercase" [] []) (.str "0123456789".toList) [0, 1, 2, 3, 4, 5, 6, 7, 8, 9] [0, 1, 2, 3, 4, 5, 6, 7, 8, 9]

-- test_transform
#guard outIs (create env "Lowercase" [] []) (.str "ABCDEFGHIJKLMNOPQRSTUVWXYZ".toList) (.str "abcdefghijklmnopqrstuvwxyz".toList)
#guard outIs (create env "Lowercase" [] []) (.str "Hello hoW are U".toList) (.str "hello how are u".toList)
#guard outIs (create env "Lowercase" [] []) (.str "薄餡亂入".toList) (.str "薄餡亂入".toList)
#guard outIs (create env "Lowercase" [] []) (.str "0123456789".toList) (.str "0123456789".toList)

-- test_transform_labels
#guard fwdIs (create env "Lowercase" [] []) (.str "ABCDEFGHIJKLMNOPQRSTUVWXYZ".toList) [0, 1, 2, 3, 4, 5, 6, 7, 8, 9, 10, 11, 12, 13, 14, 15, 16, 17, 18, 19, 20, 21, 22, 23, 24, 25] [0, 1, 2, 3, 4, 5, 6, 7, 8, 9, 10, 11, 12, 13, 14, 15, 16, 17, 18, 19, 20, 21, 22, 23, 24, 25]
#guard fwdIs (create env "Lowercase" [] []) (.str "Hello hoW are U".toList) [1, 2, 3, 4, 5, 0, 6, 7, 8, 0, 9, 10, 11, 0, 12] [1, 2, 3, 4, 5, 0, 6, 7, 8, 0, 9, 10, 11, 0, 12]
#guard fwdIs (create env "Lowercase" [] []) (.str "薄餡亂入".toList) [0, 1, 2, 3] [0, 1, 2, 3]
#guard fwdIs (create env "Lowercase" [] []) (.str "0123456789".toList) [0, 1, 2, 3, 4, 5, 6, 7, 8, 9] [0, 1, 2, 3, 4, 5, 6, 7, 8, 9]

/-! `/repo/uttut/pipeline/ops/tests/test_pad.py` -/

-- test_equal
#guard same (create env "Pad" [.int 5] []) (create env "Pad" [.int 5] [])

-- test_inverse_transform_labels
#guard bwdIs (create env "Pad" [.int 5] []) (.list [.str "alvin".toList, .str "喜歡".toList, .str "吃".toList, .str "榴槤".toList, .str "!".toList]) [1, 2, 3, 4, 5] [1, 2, 3, 4, 5]
#guard bwdIs (create env "Pad" [.int 5] []) (.list [.str "alvin".toList]) [1, 0, 0, 0, 0] [1]
#guard bwdIs (create env "Pad" [.int 5] []) (.list []) [0, 0, 0, 0, 0] []

-- test_longer_case
#guard outIs (create env "Pad" [.int 5] []) (.list [.str "alvin".toList, .str "喜歡".toList, .str "吃".toList, .str "榴槤".toList, .str "和".toList, .str "蟲".toList, .str "!".toList]) (.list [.str "alvin".toList, .str "喜歡".toList, .str "吃".toList, .str "榴槤".toList, .str "和".toList])
#guard fwdIs (create env "Pad" [.int 5] []) (.list [.str "alvin".toList, .str "喜歡".toList, .str "吃".toList, .str "榴槤".toList, .str "和".toList, .str "蟲".toList, .str "!".toList]) [1, 2, 3, 4, 5, 6, 7] [1, 2, 3, 4, 5]
#guard thereAndBack (create env "Pad" [.int 5] []) (.list [.str "alvin".toList, .str "喜歡".toList, .str "吃".toList, .str "榴槤".toList, .str "和".toList, .str "蟲".toList, .str "!".toList]) [1, 2, 3, 4, 5, 6, 7] [1, 2, 3, 4, 5, 0, 0]

-- test_not_equal
#guard differ (create env "Pad" [] [("pad_token".toList, .str "PAD".toList), ("maxlen".toList, .int 10)]) (create env "Pad" [] [("pad_token".toList, .str "PAD".toList), ("maxlen".toList, .int 15)])
#guard differ (create env "Pad" [] [("pad_token".toList, .str "PAD".toList), ("maxlen".toList, .int 15)]) (create env "Pad" [] [("maxlen".toList, .int 10)])

-- test_transform
#guard outIs (create env "Pad" [.int 5] []) (.list [.str "alvin".toList, .str "喜歡".toList, .str "吃".toList, .str "榴槤".toList, .str "!".toList]) (.list [.str "alvin".toList, .str "喜歡".toList, .str "吃".toList, .str "榴槤".toList, .str "!".toList])
#guard outIs (create env "Pad" [.int 5] []) (.list [.str "alvin".toList]) (.list [.str "alvin".toList, .str "<pad>".toList, .str "<pad>".toList, .str "<pad>".toList, .str "<pad>".toList])
#guard outIs (create env "Pad" [.int 5] []) (.list []) (.list [.str "<pad>".toList, .str "<pad>".toList, .str "<pad>".toList, .str "<pad>".toList, .str "<pad>".toList])

-- test_transform_labels
#guard fwdIs (create env "Pad" [.int 5] []) (.list [.str "alvin".toList, .str "喜歡".toList, .str "吃".toList, .str "榴槤".toList, .str "!".toList]) [1, 2, 3, 4, 5] [1, 2, 3, 4, 5]
#guard fwdIs (create env "Pad" [.int 5] []) (.list [.str "alvin".toList]) [1] [1, 0, 0, 0, 0]
#guard fwdIs (create env "Pad" [.int 5] []) (.list []) [] [0, 0, 0, 0, 0]

-- test_correct_configs
#guard configsAre (create env "Pad" [.int 5] []) (.dict [("pad_token".toList, .str "<pad>".toList), ("maxlen".toList, .int 5)])
#guard configsAre (create env "Pad" [.int 10, .str "PAD".toList] []) (.dict [("pad_token".toList, .str "PAD".toList), ("maxlen".toList, .int 10)])
#guard configsAre (create env "Pad" [] [("pad_token".toList, .str "PAD".toList), ("maxlen".toList, .int 1)]) (.dict [("pad_token".toList, .str "PAD".toList), ("maxlen".toList, .int 1)])

/-! `/repo/uttut/pipeline/ops/tests/test_punctuations_except_endpoint_to_whitespace.py` -/

-- test_equal
#guard same (create env "PunctuationExceptEndpointToWhitespace" [] []) (create env "PunctuationExceptEndpointToWhitespace" [] [])

-- test_inverse_transform_labels
#guard bwdIs (create env "PunctuationExceptEndpointToWhitespace" [] []) (.str "0.3".toList) [1, 2, 3] [1, 2, 3]
#guard bwdIs (create env "PunctuationExceptEndpointToWhitespace" [] []) (.str "O.O".toList) [2, 3, 4] [2, 3, 4]
#guard bwdIs (create env "PunctuationExceptEndpointToWhitespace" [] []) (.str "abc def".toList) [2, 3, 4, 5, 6, 7, 8] [2, 3, 4, 5, 6, 7, 8]
#guard bwdIs (create env "PunctuationExceptEndpointToWhitespace" [] []) (.str "隼興亂入".toList) [2, 3, 4, 5] [2, 3, 4, 5]

-- test_transform
#guard outIs (create env "PunctuationExceptEndpointToWhitespace" [] []) (.str "0.3".toList) (.str "0.3".toList)
#guard outIs (create env "PunctuationExceptEndpointToWhitespace" [] []) (.str "O.O".toList) (.str "O.O".toList)
#guard outIs (create env "PunctuationExceptEndpointToWhitespace" [] []) (.str "abc def".toList) (.str "abc def".toList)
#guard outIs (create env "PunctuationExceptEndpointToWhitespace" [] []) (.str "隼興亂入".toList) (.str "隼興亂入".toList)

-- test_transform_labels
#guard fwdIs (create env "PunctuationExceptEndpointToWhitespace" [] []) (.str "0.3".toList) [1, 2, 3] [1, 2, 3]
#guard fwdIs (create env "PunctuationExceptEndpointToWhitespace" [] []) (.str "O.O".toList) [2, 3, 4] [2, 3, 4]
#guard fwdIs (create env "PunctuationExceptEndpointToWhitespace" [] []) (.str "abc def".toList) [2, 3, 4, 5, 6, 7, 8] [2, 3, 4, 5, 6, 7, 8]
#guard fwdIs (create env "PunctuationExceptEndpointToWhitespace" [] []) (.str "隼興亂入".toList) [2, 3, 4, 5] [2, 3, 4, 5]

-- test_invertible_cases
#guard outIs (create env "PunctuationExceptEndpointToWhitespace" [] []) (.str "^$`".toList) (.str "   ".toList)
#guard fwdIs (create env "PunctuationExceptEndpointToWhitespace" [] []) (.str "^$`".toList) [1, 2, 3] [0, 0, 0]
#guard bwdIs (create env "PunctuationExceptEndpointToWhitespace" [] []) (.str "^$`".toList) [0, 0, 0] [0, 0, 0]
#guard outIs (create env "PunctuationExceptEndpointToWhitespace" [] []) (.str "⁕⁇※࡞".toList) (.str "    ".toList)
#guard fwdIs (create env "PunctuationExceptEndpointToWhitespace" [] []) (.str "⁕⁇※࡞".toList) [1, 2, 3, 4] [0, 0, 0, 0]
#guard bwdIs (create env "PunctuationExceptEndpointToWhitespace" [] []) (.str "⁕⁇※࡞".toList) [0, 0, 0, 0] [0, 0, 0, 0]
#guard outIs (create env "PunctuationExceptEndpointToWhitespace" [] []) (.str "西瓜汁一杯多少$$?".toList) (.str "西瓜汁一杯多少   ".toList)
#guard fwdIs (create env "PunctuationExceptEndpointToWhitespace" [] []) (.str "西瓜汁一杯多少$$?".toList) [1, 2, 3, 4, 5, 6, 7, 8, 9, 10] [1, 2, 3, 4, 5, 6, 7, 0, 0, 0]
#guard bwdIs (create env "PunctuationExceptEndpointToWhitespace" [] []) (.str "西瓜汁一杯多少$$?".toList) [1, 2, 3, 4, 5, 6, 7, 0, 0, 0] [1, 2, 3, 4, 5, 6, 7, 0, 0, 0]

/-! `/repo/uttut/pipeline/ops/tests/test_pure_num_to_token.py` -/

-- test_inverse_transform_labels
#guard bwdIs (create env "PureNum2Token" [] []) (.list [.str "100".toList, .str "W9".toList, .str "300g".toList, .str "123".toList, .str "37.6".toList]) [1, 2, 3, 4, 5] [1, 2, 3, 4, 5]
#guard bwdIs (create env "PureNum2Token" [] []) (.list [.str "１００".toList, .str "W９".toList, .str "３００g".toList, .str "１２３".toList, .str "３７.６".toList]) [1, 2, 3, 4, 5] [1, 2, 3, 4, 5]
#guard bwdIs (create env "PureNum2Token" [] []) (.list [.str "繼良".toList, .str "有".toList, .str "1234567890".toList, .str "億".toList, .str "元".toList]) [1, 2, 3, 4, 5] [1, 2, 3, 4, 5]
#guard bwdIs (create env "PureNum2Token" [] []) (.list [.str "繼良".toList, .str "有".toList, .str "１２３４５６７８９０".toList, .str "億".toList, .str "元".toList]) [1, 2, 3, 4, 5] [1, 2, 3, 4, 5]
#guard bwdIs (create env "PureNum2Token" [] []) (.list [.str "取消".toList, .str "HSC5".toList, .str "改".toList, .str "HSA5".toList]) [1, 2, 3, 4] [1, 2, 3, 4]
#guard bwdIs (create env "PureNum2Token" [] []) (.list [.str "取消".toList, .str "HSC５".toList, .str "改".toList, .str "HSA５".toList]) [1, 2, 3, 4] [1, 2, 3, 4]
#guard bwdIs (create env "PureNum2Token" [] []) (.list [.str "1２3４５６78９０".toList]) [1] [1]
#guard bwdIs (create env "PureNum2Token" [] []) (.list [.str "GB".toList, .str "亂入".toList]) [3, 4] [3, 4]
#guard bwdIs (create env "PureNum2Token" [] [("token".toList, .str "123".toList)]) (.list [.str "100".toList, .str "W9".toList, .str "300g".toList, .str "123".toList]) [1, 2, 3, 4] [1, 2, 3, 4]
#guard bwdIs (create env "PureNum2Token" [] [("token".toList, .str "123".toList)]) (.list [.str "繼良".toList, .str "有".toList, .str "100".toList, .str "億".toList, .str "元".toList]) [1, 2, 3, 4, 5] [1, 2, 3, 4, 5]
#guard bwdIs (create env "PureNum2Token" [] [("token".toList, .str "123".toList)]) (.list [.str "取消".toList, .str "HSC5".toList, .str "改".toList, .str "HSA5".toList]) [1, 2, 3, 4] [1, 2, 3, 4]
#guard bwdIs (create env "PureNum2Token" [] [("token".toList, .str "123".toList)]) (.list [.str "GB".toList, .str "亂入".toList]) [3, 4] [3, 4]

-- test_transform
#guard outIs (create env "PureNum2Token" [] []) (.list [.str "100".toList, .str "W9".toList, .str "300g".toList, .str "123".toList, .str "37.6".toList]) (.list [.str "_num_".toList, .str "W9".toList, .str "300g".toList, .str "_num_".toList, .str "37.6".toList])
#guard outIs (create env "PureNum2Token" [] []) (.list [.str "１００".toList, .str "W９".toList, .str "３００g".toList, .str "１２３".toList, .str "３７.６".toList]) (.list [.str "_num_".toList, .str "W９".toList, .str "３００g".toList, .str "_num_".toList, .str "３７.６".toList])
#guard outIs (create env "PureNum2Token" [] []) (.list [.str "繼良".toList, .str "有".toList, .str "1234567890".toList, .str "億".toList, .str "元".toList]) (.list [.str "繼良".toList, .str "有".toList, .str "_num_".toList, .str "億".toList, .str "元".toList])
#guard outIs (create env "PureNum2Token" [] []) (.list [.str "繼良".toList, .str "有".toList, .str "１２３４５６７８９０".toList, .str "億".toList, .str "元".toList]) (.list [.str "繼良".toList, .str "有".toList, .str "_num_".toList, .str "億".toList, .str "元".toList])
#guard outIs (create env "PureNum2Token" [] []) (.list [.str "取消".toList, .str "HSC5".toList, .str "改".toList, .str "HSA5".toList]) (.list [.str "取消".toList, .str "HSC5".toList, .str "改".toList, .str "HSA5".toList])
#guard outIs (create env "PureNum2Token" [] []) (.list [.str "取消".toList, .str "HSC５".toList, .str "改".toList, .str "HSA５".toList]) (.list [.str "取消".toList, .str "HSC５".toList, .str "改".toList, .str "HSA５".toList])
#guard outIs (create env "PureNum2Token" [] []) (.list [.str "1２3４５６78９０".toList]) (.list [.str "_num_".toList])
#guard outIs (create env "PureNum2Token" [] []) (.list [.str "GB".toList, .str "亂入".toList]) (.list [.str "GB".toList, .str "亂入".toList])
#guard outIs (create env "PureNum2Token" [] [("token".toList, .str "123".toList)]) (.list [.str "100".toList, .str "W9".toList, .str "300g".toList, .str "123".toList]) (.list [.str "123".toList, .str "W9".toList, .str "300g".toList, .str "123".toList])
#guard outIs (create env "PureNum2Token" [] [("token".toList, .str "123".toList)]) (.list [.str "繼良".toList, .str "有".toList, .str "100".toList, .str "億".toList, .str "元".toList]) (.list [.str "繼良".toList, .str "有".toList, .str "123".toList, .str "億".toList, .str "元".toList])
#guard outIs (create env "PureNum2Token" [] [("token".toList, .str "123".toList)]) (.list [.str "取消".toList, .str "HSC5".toList, .str "改".toList, .str "HSA5".toList]) (.list [.str "取消".toList, .str "HSC5".toList, .str "改".toList, .str "HSA5".toList])
#guard outIs (create env "PureNum2Token" [] [("token".toList, .str "123".toList)]) (.list [.str "GB".toList, .str "亂入".toList]) (.list [.str "GB".toList, .str "亂入".toList])

-- test_transform_labels
#guard fwdIs (create env "PureNum2Token" [] []) (.list [.str "100".toList, .str "W9".toList, .str "300g".toList, .str "123".toList, .str "37.6".toList]) [1, 2, 3, 4, 5] [1, 2, 3, 4, 5]
#guard fwdIs (create env "PureNum2Token" [] []) (.list [.str "１００".toList, .str "W９".toList, .str "３００g".toList, .str "１２３".toList, .str "３７.６".toList]) [1, 2, 3, 4, 5] [1, 2, 3, 4, 5]
#guard fwdIs (create env "PureNum2Token" [] []) (.list [.str "繼良".toList, .str "有".toList, .str "1234567890".toList, .str "億".toList, .str "元".toList]) [1, 2, 3, 4, 5] [1, 2, 3, 4, 5]
#guard fwdIs (create env "PureNum2Token" [] []) (.list [.str "繼良".toList, .str "有".toList, .str "１２３４５６７８９０".toList, .str "億".toList, .str "元".toList]) [1, 2, 3, 4, 5] [1, 2, 3, 4, 5]
#guard fwdIs (create env "PureNum2Token" [] []) (.list [.str "取消".toList, .str "HSC5".toList, .str "改".toList, .str "HSA5".toList]) [1, 2, 3, 4] [1, 2, 3, 4]
#guard fwdIs (create env "PureNum2Token" [] []) (.list [.str "取消".toList, .str "HSC５".toList, .str "改".toList, .str "HSA５".toList]) [1, 2, 3, 4] [1, 2, 3, 4]
#guard fwdIs (create env "PureNum2Token" [] []) (.list [.str "1２3４５６78９０".toList]) [1] [1]
#guard fwdIs (create env "PureNum2Token" [] []) (.list [.str "GB".toList, .str "亂入".toList]) [3, 4] [3, 4]
#guard fwdIs (create env "PureNum2Token" [] [("token".toList, .str "123".toList)]) (.list [.str "100".toList, .str "W9".toList, .str "300g".toList, .str "123".toList]) [1, 2, 3, 4] [1, 2, 3, 4]
#guard fwdIs (create env "PureNum2Token" [] [("token".toList, .str "123".toList)]) (.list [.str "繼良".toList, .str "有".toList, .str "100".toList, .str "億".toList, .str "元".toList]) [1, 2, 3, 4, 5] [1, 2, 3, 4, 5]
#guard fwdIs (create env "PureNum2Token" [] [("token".toList, .str "123".toList)]) (.list [.str "取消".toList, .str "HSC5".toList, .str "改".toList, .str "HSA5".toList]) [1, 2, 3, 4] [1, 2, 3, 4]
#guard fwdIs (create env "PureNum2Token" [] [("token".toList, .str "123".toList)]) (.list [.str "GB".toList, .str "亂入".toList]) [3, 4] [3, 4]

/-! `/repo/uttut/pipeline/ops/tests/test_span_subwords.py` -/

-- test_inverse_transform_labels
#guard bwdIs (create env "SpanSubwords" [] [("vocab".toList, .dict [("I".toList, .int 0), ("like".toList, .int 1), ("apples".toList, .int 2)]), ("unk_token".toList, .str "<unk>".toList), ("maxlen_per_token".toList, .int 10)]) (.list [.str "I".toList, .str "like".toList, .str "apples".toList]) [1, 2, 3] [1, 2, 3]
#guard bwdIs (create env "SpanSubwords" [] [("vocab".toList, .dict [("I".toList, .int 0), ("like".toList, .int 1), ("apples".toList, .int 2)]), ("unk_token".toList, .str "<unk>".toList), ("maxlen_per_token".toList, .int 10)]) (.list [.str "I".toList, .str "like".toList, .str "bananas".toList]) [1, 2, 3] [1, 2, 3]
#guard bwdIs (create env "SpanSubwords" [] [("vocab".toList, .dict [("I".toList, .int 0), ("like".toList, .int 1), ("apples".toList, .int 2)]), ("unk_token".toList, .str "<unk>".toList), ("maxlen_per_token".toList, .int 10)]) (.list [.str "Ilikebananas".toList]) [3] [3]
#guard bwdIs (create env "SpanSubwords" [] [("vocab".toList, .dict [("[UNK]".toList, .int 0), ("[CLS]".toList, .int 1), ("[SEP]".toList, .int 2), ("want".toList, .int 3), ("##want".toList, .int 4), ("##ed".toList, .int 5), ("wa".toList, .int 6), ("un".toList, .int 7), ("runn".toList, .int 8), ("##ing".toList, .int 9)]), ("unk_token".toList, .str "[UNK]".toList), ("maxlen_per_token".toList, .int 200)]) (.list [.str "unwanted".toList, .str "running".toList]) [1, 1, 1, 2, 2] [1, 2]
#guard bwdIs (create env "SpanSubwords" [] [("vocab".toList, .dict [("[UNK]".toList, .int 0), ("[CLS]".toList, .int 1), ("[SEP]".toList, .int 2), ("want".toList, .int 3), ("##want".toList, .int 4), ("##ed".toList, .int 5), ("wa".toList, .int 6), ("un".toList, .int 7), ("runn".toList, .int 8), ("##ing".toList, .int 9)]), ("unk_token".toList, .str "[UNK]".toList), ("maxlen_per_token".toList, .int 200)]) (.list [.str "unwantedX".toList, .str "running".toList]) [1, 2, 2] [1, 2]

-- test_transform
#guard outIs (create env "SpanSubwords" [] [("vocab".toList, .dict [("I".toList, .int 0), ("like".toList, .int 1), ("apples".toList, .int 2)]), ("unk_token".toList, .str "<unk>".toList), ("maxlen_per_token".toList, .int 10)]) (.list [.str "I".toList, .str "like".toList, .str "apples".toList]) (.list [.str "I".toList, .str "like".toList, .str "apples".toList])
#guard outIs (create env "SpanSubwords" [] [("vocab".toList, .dict [("I".toList, .int 0), ("like".toList, .int 1), ("apples".toList, .int 2)]), ("unk_token".toList, .str "<unk>".toList), ("maxlen_per_token".toList, .int 10)]) (.list [.str "I".toList, .str "like".toList, .str "bananas".toList]) (.list [.str "I".toList, .str "like".toList, .str "<unk>".toList])
#guard outIs (create env "SpanSubwords" [] [("vocab".toList, .dict [("I".toList, .int 0), ("like".toList, .int 1), ("apples".toList, .int 2)]), ("unk_token".toList, .str "<unk>".toList), ("maxlen_per_token".toList, .int 10)]) (.list [.str "Ilikebananas".toList]) (.list [.str "<unk>".toList])
#guard outIs (create env "SpanSubwords" [] [("vocab".toList, .dict [("[UNK]".toList, .int 0), ("[CLS]".toList, .int 1), ("[SEP]".toList, .int 2), ("want".toList, .int 3), ("##want".toList, .int 4), ("##ed".toList, .int 5), ("wa".toList, .int 6), ("un".toList, .int 7), ("runn".toList, .int 8), ("##ing".toList, .int 9)]), ("unk_token".toList, .str "[UNK]".toList), ("maxlen_per_token".toList, .int 200)]) (.list [.str "unwanted".toList, .str "running".toList]) (.list [.str "un".toList, .str "##want".toList, .str "##ed".toList, .str "runn".toList, .str "##ing".toList])
#guard outIs (create env "SpanSubwords" [] [("vocab".toList, .dict [("[UNK]".toList, .int 0), ("[CLS]".toList, .int 1), ("[SEP]".toList, .int 2), ("want".toList, .int 3), ("##want".toList, .int 4), ("##ed".toList, .int 5), ("wa".toList, .int 6), ("un".toList, .int 7), ("runn".toList, .int 8), ("##ing".toList, .int 9)]), ("unk_token".toList, .str "[UNK]".toList), ("maxlen_per_token".toList, .int 200)]) (.list [.str "unwantedX".toList, .str "running".toList]) (.list [.str "[UNK]".toList, .str "runn".toList, .str "##ing".toList])

-- test_transform_labels
#guard fwdIs (create env "SpanSubwords" [] [("vocab".toList, .dict [("I".toList, .int 0), ("like".toList, .int 1), ("apples".toList, .int 2)]), ("unk_token".toList, .str "<unk>".toList), ("maxlen_per_token".toList, .int 10)]) (.list [.str "I".toList, .str "like".toList, .str "apples".toList]) [1, 2, 3] [1, 2, 3]
#guard fwdIs (create env "SpanSubwords" [] [("vocab".toList, .dict [("I".toList, .int 0), ("like".toList, .int 1), ("apples".toList, .int 2)]), ("unk_token".toList, .str "<unk>".toList), ("maxlen_per_token".toList, .int 10)]) (.list [.str "I".toList, .str "like".toList, .str "bananas".toList]) [1, 2, 3] [1, 2, 3]
#guard fwdIs (create env "SpanSubwords" [] [("vocab".toList, .dict [("I".toList, .int 0), ("like".toList, .int 1), ("apples".toList, .int 2)]), ("unk_token".toList, .str "<unk>".toList), ("maxlen_per_token".toList, .int 10)]) (.list [.str "Ilikebananas".toList]) [3] [3]
#guard fwdIs (create env "SpanSubwords" [] [("vocab".toList, .dict [("[UNK]".toList, .int 0), ("[CLS]".toList, .int 1), ("[SEP]".toList, .int 2), ("want".toList, .int 3), ("##want".toList, .int 4), ("##ed".toList, .int 5), ("wa".toList, .int 6), ("un".toList, .int 7), ("runn".toList, .int 8), ("##ing".toList, .int 9)]), ("unk_token".toList, .str "[UNK]".toList), ("maxlen_per_token".toList, .int 200)]) (.list [.str "unwanted".toList, .str "running".toList]) [1, 2] [1, 1, 1, 2, 2]
#guard fwdIs (create env "SpanSubwords" [] [("vocab".toList, .dict [("[UNK]".toList, .int 0), ("[CLS]".toList, .int 1), ("[SEP]".toList, .int 2), ("want".toList, .int 3), ("##want".toList, .int 4), ("##ed".toList, .int 5), ("wa".toList, .int 6), ("un".toList, .int 7), ("runn".toList, .int 8), ("##ing".toList, .int 9)]), ("unk_token".toList, .str "[UNK]".toList), ("maxlen_per_token".toList, .int 200)]) (.list [.str "unwantedX".toList, .str "running".toList]) [1, 2] [1, 2, 2]

-- test_not_equal
#guard differ (create env "SpanSubwords" [] [("vocab".toList, .dict [("I".toList, .int 0), ("like".toList, .int 1), ("apples".toList, .int 2)]), ("unk_token".toList, .str "<unk>".toList), ("maxlen_per_token".toList, .int 10)]) (create env "SpanSubwords" [] [("vocab".toList, .dict [("I".toList, .int 0), ("like".toList, .int 1), ("apples".toList, .int 2)]), ("unk_token".toList, .str "<unk>".toList), ("maxlen_per_token".toList, .int 200)])
#guard differ (create env "SpanSubwords" [] [("vocab".toList, .dict [("I".toList, .int 0), ("like".toList, .int 1), ("apples".toList, .int 2)]), ("unk_token".toList, .str "<unk>".toList), ("maxlen_per_token".toList, .int 10)]) (create env "SpanSubwords" [] [("vocab".toList, .dict [("I".toList, .int 0), ("like".toList, .int 1), ("apples".toList, .int 2)]), ("unk_token".toList, .str "[UNK]".toList), ("maxlen_per_token".toList, .int 10)])
#guard differ (create env "SpanSubwords" [] [("vocab".toList, .dict [("I".toList, .int 0), ("like".toList, .int 1), ("apples".toList, .int 2)]), ("unk_token".toList, .str "<unk>".toList), ("maxlen_per_token".toList, .int 10)]) (create env "SpanSubwords" [] [("vocab".toList, .dict [("##apples".toList, .int 0)]), ("unk_token".toList, .str "<unk>".toList), ("maxlen_per_token".toList, .int 10)])

/-! `/repo/uttut/pipeline/ops/tests/test_strip_accent_token.py` -/

-- test_equal
#guard same (create env "StripAccentToken" [] []) (create env "StripAccentToken" [] [])

-- test_inverse_transform_labels
#guard bwdIs (create env "StripAccentToken" [] []) (.str "Héllo".toList) [1, 2, 3, 4, 5] [1, 2, 3, 4, 5]

-- test_transform
#guard outIs (create env "StripAccentToken" [] []) (.str "Héllo".toList) (.str "Hello".toList)

-- test_transform_labels
#guard fwdIs (create env "StripAccentToken" [] []) (.str "Héllo".toList) [1, 2, 3, 4, 5] [1, 2, 3, 4, 5]

/-! `/repo/uttut/pipeline/ops/tests/test_token_to_index.py` -/

-- test_equal
#guard same (create env "Token2Index" [.dict [("<unk>".toList, .int 0), ("薄餡".toList, .int 1), ("要".toList, .int 2), ("帶".toList, .int 3), ("妹".toList, .int 4)]] []) (create env "Token2Index" [.dict [("<unk>".toList, .int 0), ("薄餡".toList, .int 1), ("要".toList, .int 2), ("帶".toList, .int 3), ("妹".toList, .int 4)]] [])

-- test_invalid_token2index
#guard raises (create env "Token2Index" [] [("token2index".toList, .dict [("薄餡".toList, .int 1), ("要".toList, .int 1), ("帶".toList, .int 3), ("妹".toList, .int 4)]), ("unk_token".toList, .str "<unk>".toList)]) .valueError
#guard raises (create env "Token2Index" [] [("token2index".toList, .dict [("薄餡".toList, .int 0), ("要".toList, .int 2), ("帶".toList, .int 3), ("妹".toList, .int 4)]), ("unk_token".toList, .str "<unk>".toList)]) .valueError
#guard raises (create env "Token2Index" [] [("token2index".toList, .dict [("薄餡".toList, .int 0), ("要".toList, .int 1), ("帶".toList, .int 2), ("妹".toList, .int 3)]), ("unk_token".toList, .str "<unk>".toList)]) .keyError

-- test_inverse_transform_labels
#guard bwdIs (create env "Token2Index" [.dict [("<unk>".toList, .int 0), ("薄餡".toList, .int 1), ("要".toList, .int 2), ("帶".toList, .int 3), ("妹".toList, .int 4)]] []) (.list [.str "薄餡".toList, .str "要".toList, .str "帶".toList, .str "櫻花".toList, .str "妹".toList, .str "回來".toList]) [1, 2, 3, 4, 5, 6] [1, 2, 3, 4, 5, 6]

-- test_not_equal
#guard differ (create env "Token2Index" [] [("token2index".toList, .dict [("薄餡".toList, .int 0), ("要".toList, .int 1), ("帶".toList, .int 2), ("妹".toList, .int 3), ("UNK".toList, .int 4)]), ("unk_token".toList, .str "UNK".toList)]) (create env "Token2Index" [] [("token2index".toList, .dict [("薄餡".toList, .int 0), ("要".toList, .int 1), ("帶".toList, .int 2), ("妹".toList, .int 3), ("<unk>".toList, .int 4)])])
#guard differ (create env "Token2Index" [] [("token2index".toList, .dict [("薄餡".toList, .int 0), ("要".toList, .int 1), ("帶".toList, .int 2), ("妹".toList, .int 3), ("<unk>".toList, .int 4)])]) (create env "Token2Index" [] [("token2index".toList, .dict [("薄餡".toList, .int 0), ("<unk>".toList, .int 1)])])

-- test_transform
#guard outIs (create env "Token2Index" [.dict [("<unk>".toList, .int 0), ("薄餡".toList, .int 1), ("要".toList, .int 2), ("帶".toList, .int 3), ("妹".toList, .int 4)]] []) (.list [.str "薄餡".toList, .str "要".toList, .str "帶".toList, .str "櫻花".toList, .str "妹".toList, .str "回來".toList]) (.list [.int 1, .int 2, .int 3, .int 0, .int 4, .int 0])

-- test_transform_labels
#guard fwdIs (create env "Token2Index" [.dict [("<unk>".toList, .int 0), ("薄餡".toList, .int 1), ("要".toList, .int 2), ("帶".toList, .int 3), ("妹".toList, .int 4)]] []) (.list [.str "薄餡".toList, .str "要".toList, .str "帶".toList, .str "櫻花".toList, .str "妹".toList, .str "回來".toList]) [1, 2, 3, 4, 5, 6] [1, 2, 3, 4, 5, 6]

-- test_correct_configs
#guard configsAre (create env "Token2Index" [] [("token2index".toList, .dict [("薄餡".toList, .int 0), ("要".toList, .int 1), ("帶".toList, .int 2), ("妹".toList, .int 3), ("<unk>".toList, .int 4)])]) (.dict [("token2index".toList, .dict [("薄餡".toList, .int 0), ("要".toList, .int 1), ("帶".toList, .int 2), ("妹".toList, .int 3), ("<unk>".toList, .int 4)]), ("unk_token".toList, .str "<unk>".toList)])
#guard configsAre (create env "Token2Index" [.dict [("薄餡".toList, .int 0), ("要".toList, .int 1), ("帶".toList, .int 2), ("妹".toList, .int 3), ("<pad>".toList, .int 4)], .str "<pad>".toList] []) (.dict [("token2index".toList, .dict [("薄餡".toList, .int 0), ("要".toList, .int 1), ("帶".toList, .int 2), ("妹".toList, .int 3), ("<pad>".toList, .int 4)]), ("unk_token".toList, .str "<pad>".toList)])
#guard configsAre (create env "Token2Index" [] [("unk_token".toList, .str "PAD".toList), ("token2index".toList, .dict [("薄餡".toList, .int 0), ("PAD".toList, .int 1)])]) (.dict [("unk_token".toList, .str "PAD".toList), ("token2index".toList, .dict [("薄餡".toList, .int 0), ("PAD".toList, .int 1)])])

/-! `/repo/uttut/pipeline/ops/tests/test_token_to_index_with_hash.py` -/

-- test_equal
#guard same (create env "Token2IndexwithHash" [.dict [("oh".toList, .int 0), ("薄餡".toList, .int 1), ("要".toList, .int 2), ("帶".toList, .int 3), ("妹".toList, .int 4)]] []) (create env "Token2IndexwithHash" [.dict [("oh".toList, .int 0), ("薄餡".toList, .int 1), ("要".toList, .int 2), ("帶".toList, .int 3), ("妹".toList, .int 4)]] [])

-- test_invalid_token2index
#guard raises (create env "Token2IndexwithHash" [] [("token2index".toList, .dict [("薄餡".toList, .int 1), ("要".toList, .int 1), ("帶".toList, .int 3), ("妹".toList, .int 4)])]) .valueError
#guard raises (create env "Token2IndexwithHash" [] [("token2index".toList, .dict [("薄餡".toList, .int 0), ("要".toList, .int 2), ("帶".toList, .int 3), ("妹".toList, .int 4)])]) .valueError

-- test_inverse_transform_labels
#guard bwdIs (create env "Token2IndexwithHash" [.dict [("oh".toList, .int 0), ("薄餡".toList, .int 1), ("要".toList, .int 2), ("帶".toList, .int 3), ("妹".toList, .int 4)]] []) (.list [.str "薄餡".toList, .str "要".toList, .str "帶".toList, .str "櫻花".toList, .str "妹".toList, .str "回來".toList]) [1, 2, 3, 4, 5, 6] [1, 2, 3, 4, 5, 6]

-- test_not_equal
#guard differ (create env "Token2IndexwithHash" [.dict [("oh".toList, .int 0), ("薄餡".toList, .int 1), ("要".toList, .int 2), ("帶".toList, .int 3), ("妹".toList, .int 4)]] []) (create env "Token2IndexwithHash" [] [("token2index".toList, .dict [("薄餡".toList, .int 0), ("要".toList, .int 1), ("帶".toList, .int 2), ("妹".toList, .int 3)])])

-- test_transform
#guard outIs (create env "Token2IndexwithHash" [.dict [("oh".toList, .int 0), ("薄餡".toList, .int 1), ("要".toList, .int 2), ("帶".toList, .int 3), ("妹".toList, .int 4)]] []) (.list [.str "薄餡".toList, .str "要".toList, .str "帶".toList, .str "櫻花".toList, .str "妹".toList, .str "回來".toList]) (.list [.int 1, .int 2, .int 3, .int (Int.ofNat (consistentHash "櫻花".toList 5)), .int 4, .int (Int.ofNat (consistentHash "回來".toList 5))])

-- test_transform_labels
#guard fwdIs (create env "Token2IndexwithHash" [.dict [("oh".toList, .int 0), ("薄餡".toList, .int 1), ("要".toList, .int 2), ("帶".toList, .int 3), ("妹".toList, .int 4)]] []) (.list [.str "薄餡".toList, .str "要".toList, .str "帶".toList, .str "櫻花".toList, .str "妹".toList, .str "回來".toList]) [1, 2, 3, 4, 5, 6] [1, 2, 3, 4, 5, 6]

/-! `/repo/uttut/pipeline/ops/tokenizers/tests/test_char_tokenizer.py` -/

-- test_equal
#guard same (create env "CharTokenizer" [] []) (create env "CharTokenizer" [] [])

-- test_inverse_transform_labels
#guard bwdIs (create env "CharTokenizer" [] []) (.str "GB亂入".toList) [1, 1, 2, 2] [1, 1, 2, 2]

-- test_transform
#guard outIs (create env "CharTokenizer" [] []) (.str "GB亂入".toList) (.list [.str "G".toList, .str "B".toList, .str "亂".toList, .str "入".toList])

-- test_transform_labels
#guard fwdIs (create env "CharTokenizer" [] []) (.str "GB亂入".toList) [1, 1, 2, 2] [1, 1, 2, 2]

/-! `/repo/uttut/pipeline/ops/tokenizers/tests/test_custom_word_tokenizer.py` -/

-- test_equal
#guard same (create env "CustomWordTokenizer" [.list [.str "珍奶".toList, .str "珍奶去冰".toList, .str "去冰".toList]] []) (create env "CustomWordTokenizer" [.list [.str "珍奶".toList, .str "珍奶去冰".toList, .str "去冰".toList]] [])

-- test_invalid_init
#guard raises (create env "CustomWordTokenizer" [.list []] []) .valueError
#guard raises (create env "CustomWordTokenizer" [.none] []) .valueError

-- test_inverse_transform_labels
#guard bwdIs (create env "CustomWordTokenizer" [.list [.str "珍奶".toList, .str "珍奶去冰".toList, .str "去冰".toList]] []) (.str "珍奶".toList) [1] [1, 1]
#guard bwdIs (create env "CustomWordTokenizer" [.list [.str "珍奶".toList, .str "珍奶去冰".toList, .str "去冰".toList]] []) (.str "去冰珍奶謝謝".toList) [1, 2, 3, 4] [1, 1, 2, 2, 3, 4]
#guard bwdIs (create env "CustomWordTokenizer" [.list [.str "珍奶".toList, .str "珍奶去冰".toList, .str "去冰".toList]] []) (.str "我想要珍奶去冰".toList) [1, 2, 3, 4] [1, 2, 3, 4, 4, 4, 4]
#guard bwdIs (create env "CustomWordTokenizer" [.list [.str "珍奶".toList, .str "珍奶去冰".toList, .str "去冰".toList]] []) (.str "GB亂入".toList) [1, 2, 3, 4] [1, 2, 3, 4]

-- test_transform
#guard outIs (create env "CustomWordTokenizer" [.list [.str "珍奶".toList, .str "珍奶去冰".toList, .str "去冰".toList]] []) (.str "珍奶".toList) (.list [.str "珍奶".toList])
#guard outIs (create env "CustomWordTokenizer" [.list [.str "珍奶".toList, .str "珍奶去冰".toList, .str "去冰".toList]] []) (.str "去冰珍奶謝謝".toList) (.list [.str "去冰".toList, .str "珍奶".toList, .str "謝".toList, .str "謝".toList])
#guard outIs (create env "CustomWordTokenizer" [.list [.str "珍奶".toList, .str "珍奶去冰".toList, .str "去冰".toList]] []) (.str "我想要珍奶去冰".toList) (.list [.str "我".toList, .str "想".toList, .str "要".toList, .str "珍奶去冰".toList])
#guard outIs (create env "CustomWordTokenizer" [.list [.str "珍奶".toList, .str "珍奶去冰".toList, .str "去冰".toList]] []) (.str "GB亂入".toList) (.list [.str "G".toList, .str "B".toList, .str "亂".toList, .str "入".toList])

-- test_transform_labels
#guard fwdIs (create env "CustomWordTokenizer" [.list [.str "珍奶".toList, .str "珍奶去冰".toList, .str "去冰".toList]] []) (.str "珍奶".toList) [1, 1] [1]
#guard fwdIs (create env "CustomWordTokenizer" [.list [.str "珍奶".toList, .str "珍奶去冰".toList, .str "去冰".toList]] []) (.str "去冰珍奶謝謝".toList) [1, 1, 2, 2, 3, 4] [1, 2, 3, 4]
#guard fwdIs (create env "CustomWordTokenizer" [.list [.str "珍奶".toList, .str "珍奶去冰".toList, .str "去冰".toList]] []) (.str "我想要珍奶去冰".toList) [1, 2, 3, 4, 4, 4, 4] [1, 2, 3, 4]
#guard fwdIs (create env "CustomWordTokenizer" [.list [.str "珍奶".toList, .str "珍奶去冰".toList, .str "去冰".toList]] []) (.str "GB亂入".toList) [1, 2, 3, 4] [1, 2, 3, 4]

-- test_invertible_cases
#guard outIs (create env "CustomWordTokenizer" [.list [.str "珍奶".toList, .str "珍奶去冰".toList, .str "去冰".toList]] []) (.str "我想要珍奶去冰".toList) (.list [.str "我".toList, .str "想".toList, .str "要".toList, .str "珍奶去冰".toList])
#guard fwdIs (create env "CustomWordTokenizer" [.list [.str "珍奶".toList, .str "珍奶去冰".toList, .str "去冰".toList]] []) (.str "我想要珍奶去冰".toList) [1, 2, 3, 4, 4, 0, 4] [1, 2, 3, 4]
#guard bwdIs (create env "CustomWordTokenizer" [.list [.str "珍奶".toList, .str "珍奶去冰".toList, .str "去冰".toList]] []) (.str "我想要珍奶去冰".toList) [1, 2, 3, 4] [1, 2, 3, 4, 4, 4, 4]

/-! `/repo/uttut/pipeline/ops/tokenizers/tests/test_eng_tokenizer.py` -/

-- test_equal
#guard same (create env "EngTokenizer" [] []) (create env "EngTokenizer" [] [])

-- test_inverse_transform_labels
#guard bwdIs (create env "EngTokenizer" [] []) (.str "How's it going today, Mr.Smith?".toList) [1, 1, 1, 2, 3, 4, 5, 6, 6, 6, 7] [1, 1, 1, 1, 1, 0, 2, 2, 0, 3, 3, 3, 3, 3, 0, 4, 4, 4, 4, 4, 5, 0, 6, 6, 6, 6, 6, 6, 6, 6, 7]
#guard bwdIs (create env "EngTokenizer" [] []) (.str "a \t \t \nb".toList) [1, 2] [1, 0, 0, 0, 0, 0, 0, 2]
#guard bwdIs (create env "EngTokenizer" [] []) (.str "GB亂入".toList) [2] [2, 2, 2, 2]
#guard bwdIs (create env "EngTokenizer" [] []) (.str "".toList) [] []

-- test_transform
#guard outIs (create env "EngTokenizer" [] []) (.str "How's it going today, Mr.Smith?".toList) (.list [.str "How".toList, .str "'".toList, .str "s".toList, .str "it".toList, .str "going".toList, .str "today".toList, .str ",".toList, .str "Mr".toList, .str ".".toList, .str "Smith".toList, .str "?".toList])
#guard outIs (create env "EngTokenizer" [] []) (.str "a \t \t \nb".toList) (.list [.str "a".toList, .str "b".toList])
#guard outIs (create env "EngTokenizer" [] []) (.str "GB亂入".toList) (.list [.str "GB亂入".toList])
#guard outIs (create env "EngTokenizer" [] []) (.str "".toList) (.list [])

-- test_transform_labels
#guard fwdIs (create env "EngTokenizer" [] []) (.str "How's it going today, Mr.Smith?".toList) [1, 1, 1, 1, 1, 0, 2, 2, 0, 3, 3, 3, 3, 3, 0, 4, 4, 4, 4, 4, 5, 0, 6, 6, 6, 6, 6, 6, 6, 6, 7] [1, 1, 1, 2, 3, 4, 5, 6, 6, 6, 7]
#guard fwdIs (create env "EngTokenizer" [] []) (.str "a \t \t \nb".toList) [1, 0, 0, 0, 0, 0, 0, 2] [1, 2]
#guard fwdIs (create env "EngTokenizer" [] []) (.str "GB亂入".toList) [2, 2, 2, 2] [2]
#guard fwdIs (create env "EngTokenizer" [] []) (.str "".toList) [] []

-- test_invertible_cases
#guard outIs (create env "EngTokenizer" [] []) (.str "  a b \n".toList) (.list [.str "a".toList, .str "b".toList])
#guard fwdIs (create env "EngTokenizer" [] []) (.str "  a b \n".toList) [10, 0, 1, 3, 2, 0, 7] [1, 2]
#guard bwdIs (create env "EngTokenizer" [] []) (.str "  a b \n".toList) [1, 2] [0, 0, 1, 0, 2, 0, 0]
#guard outIs (create env "EngTokenizer" [] []) (.str "  \n".toList) (.list [])
#guard fwdIs (create env "EngTokenizer" [] []) (.str "  \n".toList) [10, 0, 1] []
#guard bwdIs (create env "EngTokenizer" [] []) (.str "  \n".toList) [] [0, 0, 0]
#guard outIs (create env "EngTokenizer" [] []) (.str "GB亂入".toList) (.list [.str "GB亂入".toList])
#guard fwdIs (create env "EngTokenizer" [] []) (.str "GB亂入".toList) [2, 2, 2, 1] [2]
#guard bwdIs (create env "EngTokenizer" [] []) (.str "GB亂入".toList) [2] [2, 2, 2, 2]

/-! `/repo/uttut/pipeline/ops/tokenizers/tests/test_whitespace_tokenizer.py` -/

-- test_equal
#guard same (create env "WhiteSpaceTokenizer" [] []) (create env "WhiteSpaceTokenizer" [] [])

-- test_inverse_transform_labels
#guard bwdIs (create env "WhiteSpaceTokenizer" [] []) (.str "a \t \t \nb c".toList) [1, 2, 3] [1, 0, 0, 0, 0, 0, 0, 2, 0, 3]
#guard bwdIs (create env "WhiteSpaceTokenizer" [] []) (.str "  a \t \t \nb c\n\r".toList) [1, 2, 3] [0, 0, 1, 0, 0, 0, 0, 0, 0, 2, 0, 3, 0, 0]
#guard bwdIs (create env "WhiteSpaceTokenizer" [] []) (.str "GB亂入".toList) [2] [2, 2, 2, 2]
#guard bwdIs (create env "WhiteSpaceTokenizer" [] []) (.str "".toList) [] []

-- test_transform
#guard outIs (create env "WhiteSpaceTokenizer" [] []) (.str "a \t \t \nb c".toList) (.list [.str "a".toList, .str "b".toList, .str "c".toList])
#guard outIs (create env "WhiteSpaceTokenizer" [] []) (.str "  a \t \t \nb c\n\r".toList) (.list [.str "a".toList, .str "b".toList, .str "c".toList])
#guard outIs (create env "WhiteSpaceTokenizer" [] []) (.str "GB亂入".toList) (.list [.str "GB亂入".toList])
#guard outIs (create env "WhiteSpaceTokenizer" [] []) (.str "".toList) (.list [])

-- test_transform_labels
#guard fwdIs (create env "WhiteSpaceTokenizer" [] []) (.str "a \t \t \nb c".toList) [1, 0, 0, 0, 0, 0, 0, 2, 0, 3] [1, 2, 3]
#guard fwdIs (create env "WhiteSpaceTokenizer" [] []) (.str "  a \t \t \nb c\n\r".toList) [0, 0, 1, 0, 0, 0, 0, 0, 0, 2, 0, 3, 0, 0] [1, 2, 3]
#guard fwdIs (create env "WhiteSpaceTokenizer" [] []) (.str "GB亂入".toList) [2, 2, 2, 2] [2]
#guard fwdIs (create env "WhiteSpaceTokenizer" [] []) (.str "".toList) [] []

/-! `/repo/uttut/pipeline/ops/tokenizers/tests/test_zh_char_tokenizer.py` -/

-- test_equal
#guard same (create env "ZhCharTokenizer" [] []) (create env "ZhCharTokenizer" [] [])

-- test_inverse_transform_labels
#guard bwdIs (create env "ZhCharTokenizer" [] []) (.str "How's it going today, Mr.Smith?".toList) [1, 1, 1, 2, 3, 4, 5, 6, 6, 6, 7] [1, 1, 1, 1, 1, 0, 2, 2, 0, 3, 3, 3, 3, 3, 0, 4, 4, 4, 4, 4, 5, 0, 6, 6, 6, 6, 6, 6, 6, 6, 7]
#guard bwdIs (create env "ZhCharTokenizer" [] []) (.str "薄餡的櫻花妹呢？".toList) [1, 1, 0, 2, 2, 2, 3, 4] [1, 1, 0, 2, 2, 2, 3, 4]
#guard bwdIs (create env "ZhCharTokenizer" [] []) (.str "GB亂入".toList) [1, 2, 2] [1, 1, 2, 2]
#guard bwdIs (create env "ZhCharTokenizer" [] []) (.str "GB亂入!!!".toList) [1, 2, 2, 3, 4, 5] [1, 1, 2, 2, 3, 4, 5]

-- test_transform
#guard outIs (create env "ZhCharTokenizer" [] []) (.str "How's it going today, Mr.Smith?".toList) (.list [.str "How".toList, .str "'".toList, .str "s".toList, .str "it".toList, .str "going".toList, .str "today".toList, .str ",".toList, .str "Mr".toList, .str ".".toList, .str "Smith".toList, .str "?".toList])
#guard outIs (create env "ZhCharTokenizer" [] []) (.str "薄餡的櫻花妹呢？".toList) (.list [.str "薄".toList, .str "餡".toList, .str "的".toList, .str "櫻".toList, .str "花".toList, .str "妹".toList, .str "呢".toList, .str "？".toList])
#guard outIs (create env "ZhCharTokenizer" [] []) (.str "GB亂入".toList) (.list [.str "GB".toList, .str "亂".toList, .str "入".toList])
#guard outIs (create env "ZhCharTokenizer" [] []) (.str "GB亂入!!!".toList) (.list [.str "GB".toList, .str "亂".toList, .str "入".toList, .str "!".toList, .str "!".toList, .str "!".toList])

-- test_transform_labels
#guard fwdIs (create env "ZhCharTokenizer" [] []) (.str "How's it going today, Mr.Smith?".toList) [1, 1, 1, 1, 1, 0, 2, 2, 0, 3, 3, 3, 3, 3, 0, 4, 4, 4, 4, 4, 5, 0, 6, 6, 6, 6, 6, 6, 6, 6, 7] [1, 1, 1, 2, 3, 4, 5, 6, 6, 6, 7]
#guard fwdIs (create env "ZhCharTokenizer" [] []) (.str "薄餡的櫻花妹呢？".toList) [1, 1, 0, 2, 2, 2, 3, 4] [1, 1, 0, 2, 2, 2, 3, 4]
#guard fwdIs (create env "ZhCharTokenizer" [] []) (.str "GB亂入".toList) [1, 1, 2, 2] [1, 2, 2]
#guard fwdIs (create env "ZhCharTokenizer" [] []) (.str "GB亂入!!!".toList) [1, 1, 2, 2, 3, 4, 5] [1, 2, 2, 3, 4, 5]

end Conform
end Uttut
