#!/bin/bash
# build one module and show the first errors
cd "$(dirname "$0")/../lean" && lake build Verif.$1 2>&1 | grep -v "^trace" | grep -A25 "error" | head -${2:-60}
