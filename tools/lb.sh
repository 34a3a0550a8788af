#!/bin/bash
# build and show a bounded amount of errors
cd /verif/lean && lake build "$@" 2>&1 | grep -A${CTX:-14} -e 'error' -e 'sorry' | cut -c1-400 | head -c ${MAXC:-3000}
