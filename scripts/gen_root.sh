#!/bin/sh
# regenerates lean/Verif.lean: imports every module under lean/Verif
cd "$(dirname "$0")/../lean" && ls Verif/*.lean | sed 's#/#.#; s#.lean$##; s#^#import #' > Verif.lean
