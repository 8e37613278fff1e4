#!/bin/sh
# Regenerates lean/Verif.lean: imports every module under lean/Verif. Run from /verif.
cd lean && find Verif -name '*.lean' | LC_ALL=C sort | sed 's#/#.#g; s#\.lean$##; s#^#import #' > Verif.lean
