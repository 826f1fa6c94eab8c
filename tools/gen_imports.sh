#!/bin/bash
cd /verif/lean && find Verif -name '*.lean' | sort | sed 's/\.lean$//; s/\//./g; s/^/import /' > Verif.lean
