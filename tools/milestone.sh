#!/bin/bash
# regenerate the generated files and build
cd /verif && python3 tools/props.py && python3 tools/mkroot.py && python3 tools/manifest.py && cd lean && lake build 2>&1 | grep -A8 "error\|Build completed"
